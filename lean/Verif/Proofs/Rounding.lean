import Verif.Spec.Rounding
import Mathlib.Algebra.Order.Round
import Mathlib.Data.Rat.Floor
import Mathlib.Tactic.Linarith
import Mathlib.Tactic.Ring
import Mathlib.Tactic.NormNum
import Mathlib.Tactic.Positivity
import Mathlib.Tactic.FieldSimp
import Mathlib.Tactic.ByContra
/-!
Facts about floating point numbers and rounding to the nearest.
-/
namespace EvoTorch.Rounding
variable {F : Fmt} {rnd : ℚ → ℚ}

theorem zpow_nat (e : ℤ) (h : 0 ≤ e) : (2 : ℚ) ^ e = ((2 ^ e.toNat : ℕ) : ℚ) := by
  obtain ⟨n, rfl⟩ := Int.eq_ofNat_of_zero_le h
  simp

theorem two_pos (e : ℤ) : (0 : ℚ) < (2 : ℚ) ^ e := zpow_pos (by norm_num) e

/-- A difference of exponents as a factor. -/
theorem zpow_split (a b : ℤ) (h : a ≤ b) : (2 : ℚ) ^ b = ((2 ^ (b - a).toNat : ℤ) : ℚ) * (2 : ℚ) ^ a := by
  have : (2 : ℚ) ^ b = (2 : ℚ) ^ (b - a) * (2 : ℚ) ^ a := by rw [← zpow_add₀ (by norm_num : (2 : ℚ) ≠ 0)]; congr 1; ring
  rw [this, zpow_nat _ (by omega)]; push_cast; ring

theorem isFloat_neg {x : ℚ} (h : IsFloat F x) : IsFloat F (-x) := by
  obtain ⟨m, e, hm, he, rfl⟩ := h
  exact ⟨-m, e, by rwa [abs_neg], he, by push_cast; ring⟩

theorem isFloat_zero : IsFloat F 0 := ⟨0, F.emin, by simp, le_refl _, by simp⟩

/-- Every number of the format is a multiple of the smallest positive one. -/
theorem isFloat_multiple {x : ℚ} (h : IsFloat F x) : ∃ k : ℤ, x = k * (2 : ℚ) ^ F.emin := by
  obtain ⟨m, e, _, he, rfl⟩ := h
  refine ⟨m * 2 ^ (e - F.emin).toNat, ?_⟩
  rw [zpow_split F.emin e he]; push_cast; ring

/-- A multiple of a power of two that is not larger than `2 ^ p` times it. -/
theorem isFloat_of_le {m e : ℤ} (hp : 1 ≤ F.p) (hm : |m| ≤ 2 ^ F.p) (he : F.emin ≤ e) : IsFloat F (m * (2 : ℚ) ^ e) := by
  rcases lt_or_eq_of_le hm with hm | hm
  · exact ⟨m, e, hm, he, rfl⟩
  · have h2 : (2 : ℤ) ^ F.p = 2 * 2 ^ (F.p - 1) := by rw [← pow_succ']; congr 1; omega
    have hlt : (2 : ℤ) ^ (F.p - 1) < 2 ^ F.p := by rw [h2]; have : (0 : ℤ) < 2 ^ (F.p - 1) := by positivity
                                                   omega
    rcases abs_choice m with h | h
    · refine ⟨2 ^ (F.p - 1), e + 1, ?_, by omega, ?_⟩
      · rwa [abs_of_pos (by positivity)]
      · have : m = 2 * 2 ^ (F.p - 1) := by omega
        rw [this, zpow_add₀ (by norm_num : (2 : ℚ) ≠ 0)]; push_cast; ring
    · refine ⟨-2 ^ (F.p - 1), e + 1, ?_, by omega, ?_⟩
      · rw [abs_neg, abs_of_pos (by positivity)]; exact hlt
      · have : m = -(2 * 2 ^ (F.p - 1)) := by omega
        rw [this, zpow_add₀ (by norm_num : (2 : ℚ) ≠ 0)]; push_cast; ring

theorem isFloat_int {m : ℤ} (hp : 1 ≤ F.p) (he : F.emin ≤ 0) (hm : |m| ≤ 2 ^ F.p) : IsFloat F m := by
  simpa using isFloat_of_le hp hm he

theorem isFloat_nat {n : ℕ} (hp : 1 ≤ F.p) (he : F.emin ≤ 0) (hn : n ≤ 2 ^ F.p) : IsFloat F n := by
  have := isFloat_int (F := F) (m := n) hp he (by rw [abs_of_nonneg (by omega)]; exact_mod_cast hn)
  simpa using this

/-- A positive number of the format, with as many bits as it can have. -/
theorem isFloat_normal {x : ℚ} (hp : 1 ≤ F.p) (h : IsFloat F x) (hx : 0 < x) :
    ∃ m e : ℤ, 0 < m ∧ m < 2 ^ F.p ∧ F.emin ≤ e ∧ x = m * (2 : ℚ) ^ e ∧ (e = F.emin ∨ 2 ^ (F.p - 1) ≤ m) := by
  obtain ⟨m, e, hm, he, hx'⟩ := h
  have hm0 : 0 < m := by
    have := two_pos e
    have : (0 : ℚ) < m := by
      by_contra hn
      push Not at hn
      nlinarith
    exact_mod_cast this
  rw [abs_of_pos hm0] at hm
  have h2 : (2 : ℤ) ^ F.p = 2 * 2 ^ (F.p - 1) := by rw [← pow_succ']; congr 1; omega
  generalize hk : (e - F.emin).toNat = k
  induction k generalizing m e with
  | zero => exact ⟨m, e, hm0, hm, he, hx', Or.inl (by omega)⟩
  | succ k ih =>
    by_cases hb : 2 ^ (F.p - 1) ≤ m
    · exact ⟨m, e, hm0, hm, he, hx', Or.inr hb⟩
    · refine ih (2 * m) (e - 1) (by omega) (by omega) ?_ (by omega) (by omega)
      rw [hx', zpow_split (e - 1) e (by omega)]
      rw [show (e - (e - 1)).toNat = 1 by omega]
      push_cast; ring

theorem Nearest.float (h : Nearest F rnd) (x : ℚ) : IsFloat F (rnd x) := (h x).1

theorem Nearest.fix (h : Nearest F rnd) {x : ℚ} (hx : IsFloat F x) : rnd x = x := by
  have := (h x).2 x hx
  simp only [sub_self, abs_zero, abs_nonpos_iff] at this
  linarith

theorem Nearest.zero (h : Nearest F rnd) : rnd 0 = 0 := h.fix isFloat_zero

theorem Nearest.mono (h : Nearest F rnd) {x y : ℚ} (hxy : x ≤ y) : rnd x ≤ rnd y := by
  by_contra hc
  push Not at hc
  have h1 := (h x).2 _ (h y).1
  have h2 := (h y).2 _ (h x).1
  have h3 : rnd x + rnd y ≤ 2 * x := by
    rcases abs_cases (rnd x - x) with ⟨e1, _⟩ | ⟨e1, _⟩ <;> rcases abs_cases (rnd y - x) with ⟨e2, _⟩ | ⟨e2, _⟩ <;> linarith
  have h4 : 2 * y ≤ rnd x + rnd y := by
    rcases abs_cases (rnd y - y) with ⟨e1, _⟩ | ⟨e1, _⟩ <;> rcases abs_cases (rnd x - y) with ⟨e2, _⟩ | ⟨e2, _⟩ <;> linarith
  have : x = y := by linarith
  rw [this] at hc
  exact lt_irrefl _ hc

theorem Nearest.le_float (h : Nearest F rnd) {x y : ℚ} (hy : IsFloat F y) (hxy : x ≤ y) : rnd x ≤ y := by
  have := h.mono hxy; rwa [h.fix hy] at this

theorem Nearest.float_le (h : Nearest F rnd) {x y : ℚ} (hx : IsFloat F x) (hxy : x ≤ y) : x ≤ rnd y := by
  have := h.mono hxy; rwa [h.fix hx] at this

/-- The difference of two numbers of the format has, rounded, the sign of the exact difference. -/
theorem Nearest.sub_pos (h : Nearest F rnd) (hp : 1 ≤ F.p) {x y : ℚ} (hx : IsFloat F x) (hy : IsFloat F y) : 0 < rnd (x - y) ↔ y < x := by
  constructor
  · intro hr
    by_contra hn
    push Not at hn
    have := h.le_float isFloat_zero (x := x - y) (by linarith)
    linarith
  · intro hlt
    obtain ⟨a, ha⟩ := isFloat_multiple hx
    obtain ⟨b, hb⟩ := isFloat_multiple hy
    have hpos := two_pos F.emin
    have hab : b < a := by
      have : (b : ℚ) < a := by
        by_contra hn
        push Not at hn
        rw [ha, hb] at hlt
        nlinarith
      exact_mod_cast this
    have hone : IsFloat F ((2 : ℚ) ^ F.emin) := by
      have := isFloat_of_le (F := F) (m := 1) (e := F.emin) hp (by simpa using one_le_pow₀ (by norm_num : (1 : ℤ) ≤ 2)) (le_refl _)
      simpa using this
    have hge : (2 : ℚ) ^ F.emin ≤ x - y := by
      have : (1 : ℚ) ≤ a - b := by
        have : (1 : ℤ) ≤ a - b := by omega
        exact_mod_cast this
      rw [ha, hb]; nlinarith
    have := h.float_le hone hge
    linarith

theorem Nearest.sub_neg (h : Nearest F rnd) (hp : 1 ≤ F.p) {x y : ℚ} (hx : IsFloat F x) (hy : IsFloat F y) : rnd (x - y) < 0 ↔ x < y := by
  constructor
  · intro hr
    by_contra hn
    push Not at hn
    have := h.float_le isFloat_zero (y := x - y) (by linarith)
    linarith
  · intro hlt
    obtain ⟨a, ha⟩ := isFloat_multiple hx
    obtain ⟨b, hb⟩ := isFloat_multiple hy
    have hpos := two_pos F.emin
    have hab : a < b := by
      have : (a : ℚ) < b := by
        by_contra hn
        push Not at hn
        rw [ha, hb] at hlt
        nlinarith
      exact_mod_cast this
    have hone : IsFloat F ((-1 : ℤ) * (2 : ℚ) ^ F.emin) :=
      isFloat_of_le (F := F) (m := -1) (e := F.emin) hp (by simpa using one_le_pow₀ (by norm_num : (1 : ℤ) ≤ 2)) (le_refl _)
    have hge : x - y ≤ (-1 : ℤ) * (2 : ℚ) ^ F.emin := by
      have : (1 : ℚ) ≤ b - a := by
        have : (1 : ℤ) ≤ b - a := by omega
        exact_mod_cast this
      rw [ha, hb]; push_cast; nlinarith
    have := h.le_float hone hge
    push_cast at this
    linarith

/-- The largest number of the format below 1. -/
theorem isFloat_lt_one {x : ℚ} (h : IsFloat F x) (hx : x < 1) : x ≤ 1 - (2 : ℚ) ^ (-(F.p : ℤ)) := by
  obtain ⟨m, e, hm, he, rfl⟩ := h
  have hpp := two_pos (-(F.p : ℤ))
  have hone : (2 : ℚ) ^ (-(F.p : ℤ)) * ((2 ^ F.p : ℤ) : ℚ) = 1 := by
    rw [zpow_neg, zpow_natCast]; push_cast; exact inv_mul_cancel₀ (by positivity)
  rcases le_or_gt (-(F.p : ℤ)) e with hle | hlt
  · rw [zpow_split _ _ hle] at hx ⊢
    generalize hk : m * 2 ^ (e - -(F.p : ℤ)).toNat = k
    have hmk : (m : ℚ) * (((2 ^ (e - -(F.p : ℤ)).toNat : ℤ) : ℚ) * (2 : ℚ) ^ (-(F.p : ℤ))) = k * (2 : ℚ) ^ (-(F.p : ℤ)) := by
      rw [← hk]; push_cast; ring
    rw [hmk] at hx ⊢
    have hlt' : k < 2 ^ F.p := by
      have : (k : ℚ) < ((2 ^ F.p : ℤ) : ℚ) := by
        by_contra hn
        push Not at hn
        nlinarith
      exact_mod_cast this
    have : (k : ℚ) ≤ ((2 ^ F.p : ℤ) : ℚ) - 1 := by
      have : k ≤ 2 ^ F.p - 1 := by omega
      exact_mod_cast this
    nlinarith
  · have hme : (m : ℚ) ≤ ((2 ^ F.p : ℤ) : ℚ) - 1 := by
      have : m ≤ 2 ^ F.p - 1 := by have := (abs_lt.mp hm).2; omega
      exact_mod_cast this
    have h1 : (1 : ℚ) ≤ ((2 ^ F.p : ℤ) : ℚ) := by
      have : (1 : ℤ) ≤ 2 ^ F.p := one_le_pow₀ (by norm_num)
      exact_mod_cast this
    have he' : (2 : ℚ) ^ e ≤ (2 : ℚ) ^ (-(F.p : ℤ)) := zpow_le_zpow_right₀ (by norm_num) (by omega)
    have hpe := two_pos e
    calc (m : ℚ) * (2 : ℚ) ^ e ≤ (((2 ^ F.p : ℤ) : ℚ) - 1) * (2 : ℚ) ^ e := by nlinarith
      _ ≤ (((2 ^ F.p : ℤ) : ℚ) - 1) * (2 : ℚ) ^ (-(F.p : ℤ)) := by nlinarith
      _ = 1 - (2 : ℚ) ^ (-(F.p : ℤ)) := by rw [sub_mul, mul_comm, hone, one_mul]

/-- A grid is rounded finely: if the multiples of `2 ^ e` up to `2 ^ p` times it are numbers of the format, then a number among them is moved by at most half a step. -/
theorem Nearest.close (h : Nearest F rnd) (hp : 1 ≤ F.p) {e : ℤ} (he : F.emin ≤ e) {x : ℚ} (hx : |x| ≤ ((2 ^ F.p : ℤ) : ℚ) * (2 : ℚ) ^ e) :
    |rnd x - x| ≤ (2 : ℚ) ^ e / 2 := by
  have hpe := two_pos e
  have hr := abs_sub_round (x / (2 : ℚ) ^ e)
  have hb : |round (x / (2 : ℚ) ^ e)| ≤ 2 ^ F.p := by
    have hd : |x / (2 : ℚ) ^ e| ≤ ((2 ^ F.p : ℤ) : ℚ) := by
      rw [abs_div, abs_of_pos hpe, div_le_iff₀ hpe]; exact hx
    obtain ⟨h1, h2⟩ := abs_le.mp hd
    have ha := abs_le.mp hr
    rw [abs_le]
    constructor
    · have : (-(2 ^ F.p : ℤ) - 1 : ℚ) < (round (x / (2 : ℚ) ^ e) : ℚ) := by push_cast at *; linarith
      have : -(2 ^ F.p : ℤ) - 1 < round (x / (2 : ℚ) ^ e) := by exact_mod_cast this
      omega
    · have : (round (x / (2 : ℚ) ^ e) : ℚ) < (2 ^ F.p : ℤ) + 1 := by push_cast at *; linarith
      have : round (x / (2 : ℚ) ^ e) < 2 ^ F.p + 1 := by exact_mod_cast this
      omega
  have := (h x).2 _ (isFloat_of_le hp hb he)
  refine this.trans ?_
  have hxe : x = x / (2 : ℚ) ^ e * (2 : ℚ) ^ e := by field_simp
  calc |(round (x / (2 : ℚ) ^ e) : ℚ) * (2 : ℚ) ^ e - x| = |(round (x / (2 : ℚ) ^ e) - x / (2 : ℚ) ^ e) * (2 : ℚ) ^ e| := by
        rw [sub_mul, ← hxe]
    _ = |x / (2 : ℚ) ^ e - round (x / (2 : ℚ) ^ e)| * (2 : ℚ) ^ e := by rw [abs_mul, abs_of_pos hpe, abs_sub_comm]
    _ ≤ (2 : ℚ) ^ e / 2 := by nlinarith

/-- Which number a number is rounded to, if it is within half a step of it. -/
theorem Nearest.eq_of (h : Nearest F rnd) (hp : 1 ≤ F.p) {m e : ℤ} (hm : 2 ^ (F.p - 1) < m) (hm' : m < 2 ^ F.p) (he : F.emin ≤ e) {x : ℚ}
    (hx : |m * (2 : ℚ) ^ e - x| < (2 : ℚ) ^ e / 2) : rnd x = m * (2 : ℚ) ^ e := by
  have hpe := two_pos e
  have hm0 : 0 < m := lt_trans (by positivity) hm
  have hle := (h x).2 (m * (2 : ℚ) ^ e) ⟨m, e, by rwa [abs_of_pos hm0], he, rfl⟩
  have hdist : |rnd x - m * (2 : ℚ) ^ e| < (2 : ℚ) ^ e := by
    rw [abs_lt] at hx ⊢
    have := abs_le.mp (hle.trans (abs_lt.mpr hx).le)
    have hlt := abs_lt.mp (lt_of_le_of_lt hle (abs_lt.mpr hx))
    constructor <;> linarith
  obtain ⟨m', e', hb, he', hr⟩ := h.float x
  rw [hr] at hdist ⊢
  obtain ⟨d1, d2⟩ := abs_lt.mp hdist
  rcases le_or_gt e e' with hee | hee
  · rw [zpow_split e e' hee] at d1 d2 ⊢
    have h1 : (m : ℚ) - 1 < m' * ((2 ^ (e' - e).toNat : ℤ) : ℚ) := by
      by_contra hn; push Not at hn; nlinarith
    have h2 : (m' : ℚ) * ((2 ^ (e' - e).toNat : ℤ) : ℚ) < m + 1 := by
      by_contra hn; push Not at hn; nlinarith
    have h1' : m - 1 < m' * 2 ^ (e' - e).toNat := by exact_mod_cast h1
    have h2' : m' * 2 ^ (e' - e).toNat < m + 1 := by exact_mod_cast h2
    have : m' * 2 ^ (e' - e).toNat = m := by omega
    rw [← this]; push_cast; ring
  · exfalso
    have h2 : (2 : ℤ) ^ F.p = 2 * 2 ^ (F.p - 1) := by rw [← pow_succ']; congr 1; omega
    have hee' : (2 : ℚ) ^ e' ≤ (2 : ℚ) ^ (e - 1) := zpow_le_zpow_right₀ (by norm_num) (by omega)
    have hs := zpow_split (e - 1) e (by omega)
    rw [show (e - (e - 1)).toNat = 1 by omega] at hs
    push_cast at hs
    have hp1 := two_pos (e - 1)
    have hp2 := two_pos e'
    have hmm : (m' : ℚ) ≤ ((2 ^ F.p : ℤ) : ℚ) - 1 := by
      have : m' ≤ 2 ^ F.p - 1 := by have := (abs_lt.mp hb).2; omega
      exact_mod_cast this
    have hm1 : ((2 ^ (F.p - 1) : ℤ) : ℚ) + 1 ≤ m := by exact_mod_cast hm
    have h2q : ((2 ^ F.p : ℤ) : ℚ) = 2 * ((2 ^ (F.p - 1) : ℤ) : ℚ) := by exact_mod_cast h2
    have hge1 : (1 : ℚ) ≤ ((2 ^ (F.p - 1) : ℤ) : ℚ) := by
      have : (1 : ℤ) ≤ 2 ^ (F.p - 1) := one_le_pow₀ (by norm_num)
      exact_mod_cast this
    have hA : (m' : ℚ) * (2 : ℚ) ^ e' ≤ (((2 ^ F.p : ℤ) : ℚ) - 1) * (2 : ℚ) ^ (e - 1) := by
      calc (m' : ℚ) * (2 : ℚ) ^ e' ≤ (((2 ^ F.p : ℤ) : ℚ) - 1) * (2 : ℚ) ^ e' := by nlinarith
        _ ≤ _ := by nlinarith
    have hB : ((2 ^ (F.p - 1) : ℤ) : ℚ) * (2 : ℚ) ^ e ≤ (m - 1) * (2 : ℚ) ^ e := by nlinarith
    rw [h2q] at hA
    nlinarith

/-- Rounding to the nearest as a function, for showing that there is one. -/
def roundTo (F : Fmt) (x : ℚ) : ℚ :=
  let e := max F.emin (Int.log 2 |x| - F.p + 1)
  round (x / (2 : ℚ) ^ e) * (2 : ℚ) ^ e

theorem roundTo_nearest (hp : 1 ≤ F.p) : Nearest F (roundTo F) := by
  intro x
  by_cases hx : x = 0
  · subst hx
    have h0 : roundTo F 0 = 0 := by simp [roundTo]
    rw [h0]
    exact ⟨isFloat_zero, fun y _ => by simp⟩
  have hx0 : 0 < |x| := abs_pos.mpr hx
  have hlow : (2 : ℚ) ^ Int.log 2 |x| ≤ |x| := by simpa using Int.zpow_log_le_self (b := 2) (by norm_num) hx0
  have hup : |x| < (2 : ℚ) ^ (Int.log 2 |x| + 1) := by simpa using Int.lt_zpow_succ_log_self (b := 2) (by norm_num) |x|
  have hround : roundTo F x = round (x / (2 : ℚ) ^ max F.emin (Int.log 2 |x| - F.p + 1)) * (2 : ℚ) ^ max F.emin (Int.log 2 |x| - F.p + 1) := rfl
  rw [hround]
  generalize hL : Int.log 2 |x| = L at *
  generalize he : max F.emin (L - F.p + 1) = e at *
  have hpe := two_pos e
  have he1 : F.emin ≤ e := by omega
  have he2 : L + 1 ≤ F.p + e := by omega
  have hpow : (2 : ℚ) ^ ((F.p : ℤ) + e) = ((2 ^ F.p : ℤ) : ℚ) * (2 : ℚ) ^ e := by
    rw [zpow_add₀ (by norm_num : (2 : ℚ) ≠ 0), zpow_natCast]; push_cast; ring
  have hbound : |x| ≤ ((2 ^ F.p : ℤ) : ℚ) * (2 : ℚ) ^ e := by
    rw [← hpow]
    exact hup.le.trans (zpow_le_zpow_right₀ (by norm_num) he2)
  have hgrid : ∀ z : ℤ, |round (x / (2 : ℚ) ^ e) * (2 : ℚ) ^ e - x| ≤ |z * (2 : ℚ) ^ e - x| := by
    intro z
    have hxe : x = x / (2 : ℚ) ^ e * (2 : ℚ) ^ e := by field_simp
    have hscale : ∀ w : ℤ, |(w : ℚ) * (2 : ℚ) ^ e - x| = |x / (2 : ℚ) ^ e - w| * (2 : ℚ) ^ e := by
      intro w
      calc |(w : ℚ) * (2 : ℚ) ^ e - x| = |((w : ℚ) - x / (2 : ℚ) ^ e) * (2 : ℚ) ^ e| := by rw [sub_mul, ← hxe]
        _ = |x / (2 : ℚ) ^ e - w| * (2 : ℚ) ^ e := by rw [abs_mul, abs_of_pos hpe, abs_sub_comm]
    rw [hscale, hscale]
    have := round_le (x / (2 : ℚ) ^ e) z
    nlinarith
  constructor
  · apply isFloat_of_le hp _ he1
    have hr := abs_le.mp (abs_sub_round (x / (2 : ℚ) ^ e))
    have hd : |x / (2 : ℚ) ^ e| ≤ ((2 ^ F.p : ℤ) : ℚ) := by
      rw [abs_div, abs_of_pos hpe, div_le_iff₀ hpe]; exact hbound
    obtain ⟨h1, h2⟩ := abs_le.mp hd
    rw [abs_le]
    constructor
    · have : (-(2 ^ F.p : ℤ) - 1 : ℚ) < (round (x / (2 : ℚ) ^ e) : ℚ) := by push_cast at *; linarith
      have : -(2 ^ F.p : ℤ) - 1 < round (x / (2 : ℚ) ^ e) := by exact_mod_cast this
      omega
    · have : (round (x / (2 : ℚ) ^ e) : ℚ) < (2 ^ F.p : ℤ) + 1 := by push_cast at *; linarith
      have : round (x / (2 : ℚ) ^ e) < 2 ^ F.p + 1 := by exact_mod_cast this
      omega
  · rintro y ⟨m, e', hm, he', rfl⟩
    rcases le_or_gt e e' with hee | hee
    · have := hgrid (m * 2 ^ (e' - e).toNat)
      rw [zpow_split e e' hee]
      push_cast at this ⊢
      rw [mul_assoc] at this
      exact this
    · have heL : e = L - F.p + 1 := by omega
      have hsmall : |(m : ℚ) * (2 : ℚ) ^ e'| < (2 : ℚ) ^ L := by
        have hpe' := two_pos e'
        have h1 : |(m : ℚ)| < ((2 ^ F.p : ℤ) : ℚ) := by rw [← Int.cast_abs]; exact_mod_cast hm
        have h3 : ((2 ^ F.p : ℤ) : ℚ) * (2 : ℚ) ^ e' ≤ (2 : ℚ) ^ L := by
          have : ((2 ^ F.p : ℤ) : ℚ) * (2 : ℚ) ^ e' = (2 : ℚ) ^ ((F.p : ℤ) + e') := by
            rw [zpow_add₀ (by norm_num : (2 : ℚ) ≠ 0), zpow_natCast]; push_cast; ring
          rw [this]
          exact zpow_le_zpow_right₀ (by norm_num) (by omega)
        rw [abs_mul, abs_of_pos hpe']
        nlinarith
      have hpowL : (2 : ℚ) ^ L = ((2 ^ (F.p - 1) : ℤ) : ℚ) * (2 : ℚ) ^ e := by
        rw [zpow_split e L (by omega), show (L - e).toNat = F.p - 1 by omega]
      obtain ⟨s1, s2⟩ := abs_lt.mp hsmall
      rcases lt_or_gt_of_ne hx with hneg | hpos
      · refine (hgrid (-2 ^ (F.p - 1))).trans ?_
        rw [abs_of_neg hneg] at hlow
        have hz : ((-2 ^ (F.p - 1) : ℤ) : ℚ) * (2 : ℚ) ^ e = -(2 : ℚ) ^ L := by rw [hpowL]; push_cast; ring
        rw [hz, abs_of_nonneg (by linarith), abs_of_nonneg (by linarith)]
        linarith
      · refine (hgrid (2 ^ (F.p - 1))).trans ?_
        rw [abs_of_pos hpos] at hlow
        rw [← hpowL, abs_of_nonpos (by linarith), abs_of_nonpos (by linarith)]
        linarith

end EvoTorch.Rounding
