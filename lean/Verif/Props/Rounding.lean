import Verif.Model.Rounding
import Verif.Proofs.Rounding
import Verif.Props.Ranking
import Verif.Props.Selection
import Mathlib.Tactic.NormNum
import Mathlib.Data.Fin.VecNotation
/-!
C161 (guarantees that survive the rounding of floating point numbers).
-/
namespace EvoTorch.Rounding
open BestWorst (Sense)
open Constraints (Cmp)
open Selection (Sorter SorterSpec IsArgsort IsParetoRank)
variable {F : Fmt} {rnd : ℚ → ℚ}

/-- The formats of torch are usual ones, and for each there is a rounding to the nearest. -/
example : float64.Usual ∧ float32.Usual ∧ float16.Usual ∧ bfloat16.Usual ∧ ∀ F ∈ [float64, float32, float16, bfloat16], Nearest F (roundTo F) := by
  refine ⟨by simp [Fmt.Usual, float64], by simp [Fmt.Usual, float32], by simp [Fmt.Usual, float16], by simp [Fmt.Usual, bfloat16], ?_⟩
  intro F hF
  apply roundTo_nearest
  simp only [List.mem_cons, List.not_mem_nil, or_false] at hF
  rcases hF with rfl | rfl | rfl | rfl <;> simp [float64, float32, float16, bfloat16]

/-- **C161.** Whatever is drawn, a uniformly distributed value lies within its bounds, the upper one included, in every format and with every rounding to the nearest. -/
theorem C161_uniform (h : Nearest F rnd) (hp : 1 ≤ F.p) (r lb ub : ℚ) (hr : IsFloat F r) (h0 : 0 ≤ r) (h1 : r < 1) (hl : IsFloat F lb) (hu : IsFloat F ub)
    (hle : lb ≤ ub) : lb ≤ uniform rnd r lb ub ∧ uniform rnd r lb ub ≤ ub ∧ IsFloat F (uniform rnd r lb ub) := by
  have hD0 : 0 ≤ rnd (ub - lb) := h.float_le isFloat_zero (by linarith)
  have hout0 : 0 ≤ rnd (r * rnd (ub - lb)) := h.float_le isFloat_zero (mul_nonneg h0 hD0)
  refine ⟨h.float_le hl (by linarith), h.le_float hu ?_, h.float _⟩
  have hrD : r * rnd (ub - lb) ≤ rnd (ub - lb) := by nlinarith
  have houtD : rnd (r * rnd (ub - lb)) ≤ rnd (ub - lb) := h.le_float (h.float _) hrD
  generalize hd : ub - lb = d at *
  suffices hs : rnd (r * rnd d) ≤ d by linarith
  rcases le_or_gt (rnd d) d with hDd | hDd
  · linarith
  by_contra hc
  push Not at hc
  have hnear := (h d).2 _ (h.float (r * rnd d))
  rw [abs_of_pos (by linarith), abs_of_pos (by linarith)] at hnear
  have heq : rnd (r * rnd d) = rnd d := by linarith
  have hd0 : 0 ≤ d := by linarith
  have hr' := isFloat_lt_one hr h1
  have hDpos : 0 < rnd d := by linarith
  obtain ⟨m, e, hm0, hm, he, hD, hcase⟩ := isFloat_normal hp (h.float d) hDpos
  have hpe := two_pos e
  have hone : (2 : ℚ) ^ (-(F.p : ℤ)) * ((2 ^ F.p : ℤ) : ℚ) = 1 := by
    rw [zpow_neg, zpow_natCast]; push_cast; exact inv_mul_cancel₀ (by positivity)
  have hpp := two_pos (-(F.p : ℤ))
  have h2 : (2 : ℤ) ^ F.p = 2 * 2 ^ (F.p - 1) := by rw [← pow_succ']; congr 1; omega
  have h2q : ((2 ^ F.p : ℤ) : ℚ) = 2 * ((2 ^ (F.p - 1) : ℤ) : ℚ) := by exact_mod_cast h2
  have hnear' : ∀ y, IsFloat F y → |rnd d - r * rnd d| ≤ |y - r * rnd d| := by
    intro y hy
    have := (h (r * rnd d)).2 y hy
    rwa [heq] at this
  have hgap : (2 : ℚ) ^ (-(F.p : ℤ)) * rnd d ≤ rnd d - r * rnd d := by nlinarith
  by_cases hemin : e = F.emin
  · obtain ⟨a, ha⟩ := isFloat_multiple hu
    obtain ⟨b, hb⟩ := isFloat_multiple hl
    have hdk : d = ((a - b : ℤ) : ℚ) * (2 : ℚ) ^ F.emin := by rw [← hd, ha, hb]; push_cast; ring
    have hdf : IsFloat F d := by
      refine ⟨a - b, F.emin, ?_, le_refl _, hdk⟩
      rw [← hemin] at hdk
      have hlt : ((a - b : ℤ) : ℚ) < m := by
        by_contra hn
        push Not at hn
        rw [hD, hdk] at hDd
        nlinarith
      have hge : (0 : ℚ) ≤ ((a - b : ℤ) : ℚ) := by
        by_contra hn
        push Not at hn
        rw [hdk] at hd0
        nlinarith
      have hlt' : a - b < m := by exact_mod_cast hlt
      have hge' : 0 ≤ a - b := by exact_mod_cast hge
      rw [abs_of_nonneg hge']; omega
    have := h.fix hdf
    linarith
  · have hbig : 2 ^ (F.p - 1) ≤ m := by
      rcases hcase with hc' | hc'
      · exact absurd hc' hemin
      · exact hc'
    rcases lt_or_eq_of_le hbig with hlt | hpow
    · have hy : IsFloat F (((m - 1 : ℤ) : ℚ) * (2 : ℚ) ^ e) := ⟨m - 1, e, by rw [abs_of_nonneg (by omega)]; omega, he, rfl⟩
      have hn := hnear' _ hy
      have hmq : ((2 ^ (F.p - 1) : ℤ) : ℚ) < m := by exact_mod_cast hlt
      have hhalf : (2 : ℚ) ^ e / 2 < rnd d - r * rnd d := by
        refine lt_of_lt_of_le ?_ hgap
        rw [hD]
        have : (1 : ℚ) / 2 < (2 : ℚ) ^ (-(F.p : ℤ)) * m := by nlinarith
        nlinarith
      rw [abs_of_pos (by linarith)] at hn
      have hyD : ((m - 1 : ℤ) : ℚ) * (2 : ℚ) ^ e = rnd d - (2 : ℚ) ^ e := by rw [hD]; push_cast; ring
      rw [hyD] at hn
      rcases abs_cases (rnd d - (2 : ℚ) ^ e - r * rnd d) with ⟨ea, _⟩ | ⟨ea, _⟩ <;> linarith
    · have hs := zpow_split (e - 1) e (by omega)
      rw [show (e - (e - 1)).toNat = 1 by omega] at hs
      push_cast at hs
      have hpe1 := two_pos (e - 1)
      have hp1 : (1 : ℤ) ≤ 2 ^ F.p := one_le_pow₀ (by norm_num)
      have hy : IsFloat F (((2 ^ F.p - 1 : ℤ) : ℚ) * (2 : ℚ) ^ (e - 1)) :=
        ⟨2 ^ F.p - 1, e - 1, by rw [abs_of_nonneg (by omega)]; omega, by omega, rfl⟩
      have hn := hnear' _ hy
      have hmq : (m : ℚ) = ((2 ^ (F.p - 1) : ℤ) : ℚ) := by rw [← hpow]
      have hDe : rnd d = ((2 ^ F.p : ℤ) : ℚ) * (2 : ℚ) ^ (e - 1) := by rw [hD, hmq, h2q, hs]; ring
      have hge : (2 : ℚ) ^ (e - 1) ≤ rnd d - r * rnd d := by
        refine le_trans (le_of_eq ?_) hgap
        rw [hDe, ← mul_assoc, hone, one_mul]
      have hyD : ((2 ^ F.p - 1 : ℤ) : ℚ) * (2 : ℚ) ^ (e - 1) = rnd d - (2 : ℚ) ^ (e - 1) := by rw [hDe]; push_cast; ring
      rw [hyD] at hn
      rw [abs_of_pos (by linarith)] at hn
      rcases abs_cases (rnd d - (2 : ℚ) ^ (e - 1) - r * rnd d) with ⟨ea, _⟩ | ⟨ea, _⟩ <;> linarith

/-- The draw of 1 - 2 ^ -24 between 1 and 2 in single precision: an instance of the hypotheses of `C161_uniform`, in which rounding up reaches the upper bound. -/
example : IsFloat float32 (1 - 1 / 2 ^ 24) ∧ IsFloat float32 1 ∧ IsFloat float32 2 ∧ (1 : ℚ) - 1 / 2 ^ 24 < 1 := by
  refine ⟨⟨2 ^ 24 - 1, -24, by norm_num [float32], by norm_num [float32], by norm_num⟩, ⟨1, 0, by norm_num [float32], by norm_num [float32], by norm_num⟩,
    ⟨1, 1, by norm_num [float32], by norm_num [float32], by norm_num⟩, by norm_num⟩

/-- **C161.** `compare_solutions`, `is_better` and `is_worse` compare by a rounded difference, and are never mistaken: the difference is positive, negative or zero exactly
if the first evaluation is better, worse or the same. -/
theorem C161_compare (h : Nearest F rnd) (hp : 1 ≤ F.p) (s : Sense) (a b : ℚ) (ha : IsFloat F a) (hb : IsFloat F b) :
    (0 < compareSolutions rnd s a b ↔ match s with | .max => b < a | .min => a < b) ∧
    (compareSolutions rnd s a b < 0 ↔ match s with | .max => a < b | .min => b < a) ∧
    (compareSolutions rnd s a b = 0 ↔ a = b) ∧
    (isBetter rnd s a b = true ↔ match s with | .max => b < a | .min => a < b) ∧
    (isWorse rnd s a b = true ↔ match s with | .max => a < b | .min => b < a) := by
  have e1 := h.sub_pos hp ha hb
  have e2 := h.sub_neg hp ha hb
  have e3 := h.sub_pos hp hb ha
  have e4 := h.sub_neg hp hb ha
  have z1 : rnd (a - b) = 0 ↔ a = b := by
    constructor
    · intro hz
      rcases lt_trichotomy a b with hl | hl | hl
      · exact absurd (e2.mpr hl) (by rw [hz]; exact lt_irrefl _)
      · exact hl
      · exact absurd (e1.mpr hl) (by rw [hz]; exact lt_irrefl _)
    · rintro rfl; rw [sub_self]; exact h.zero
  have z2 : rnd (b - a) = 0 ↔ a = b := by
    constructor
    · intro hz
      rcases lt_trichotomy a b with hl | hl | hl
      · exact absurd (e3.mpr hl) (by rw [hz]; exact lt_irrefl _)
      · exact hl
      · exact absurd (e4.mpr hl) (by rw [hz]; exact lt_irrefl _)
    · rintro rfl; rw [sub_self]; exact h.zero
  cases s <;> simp [compareSolutions, isBetter, isWorse, e1, e2, e3, e4, z1, z2]

/-- Two neighbouring numbers, the smallest positive one and 0, are told apart in half precision. -/
example : isBetter (roundTo float16) .max ((1 : ℚ) / 2 ^ 24) 0 = true := by
  have := (C161_compare (roundTo_nearest (F := float16) (by simp [float16])) (by simp [float16]) .max ((1 : ℚ) / 2 ^ 24) 0
    ⟨1, -24, by norm_num [float16], by norm_num [float16], by norm_num⟩ isFloat_zero).2.2.2.1
  rw [this]; norm_num

/-- **C161.** The amount of a violation is positive exactly if the constraint is violated. -/
theorem C161_violation (h : Nearest F rnd) (hp : 1 ≤ F.p) (lhs rhs : ℚ) (hl : IsFloat F lhs) (hr : IsFloat F rhs) (c : Cmp) (v : ℚ)
    (hv : violation rnd lhs c rhs = .ok v) :
    0 ≤ v ∧ (0 < v ↔ ¬ match c with | .ge => lhs ≥ rhs | .le => lhs ≤ rhs | .eq => lhs = rhs | .unknown => True) := by
  cases c with
  | ge => simp only [violation, Except.ok.injEq] at hv; subst hv; simp [h.sub_pos hp hr hl]
  | le => simp only [violation, Except.ok.injEq] at hv; subst hv; simp [h.sub_pos hp hl hr]
  | eq =>
    simp only [violation, Except.ok.injEq] at hv; subst hv
    refine ⟨abs_nonneg _, ?_⟩
    rw [abs_pos]
    have := (C161_compare h hp .max lhs rhs hl hr).2.2.1
    exact not_congr this
  | unknown => simp [violation] at hv

/-- **C161.** A batch of at most `2 ^ p` solutions is divided into the pieces of the exact computation, however the quotient of the sizes is rounded: into the least number
of pieces that can hold it. Missing: more than `2 ^ p` solutions (`p` is 53 for the quotients of Python), and a `max_size` so large that the quotient vanishes. -/
theorem C161_pieces_partial (h : Nearest F rnd) (hF : F.Usual) (total maxSize : ℕ) (ht : total ≤ 2 ^ F.p) (h0 : 0 < maxSize) (hm : (maxSize : ℚ) ≤ (2 : ℚ) ^ (-F.emin)) :
    0 ≤ numPieces rnd total maxSize ∧ (total : ℤ) ≤ numPieces rnd total maxSize * maxSize ∧ (numPieces rnd total maxSize - 1) * maxSize < total ∧
    sizesByMax rnd total maxSize = Workload.sizesByMax total maxSize := by
  obtain ⟨hp, hemin⟩ := hF
  have hms : (0 : ℚ) < maxSize := by exact_mod_cast h0
  have key : numPieces rnd total maxSize = ⌈(total : ℚ) / maxSize⌉ := by
    rw [numPieces, Int.ceil_eq_iff]
    generalize hn : ⌈(total : ℚ) / maxSize⌉ = n
    obtain ⟨hlo, hhi⟩ := Int.ceil_eq_iff.mp hn
    have hn0 : 0 ≤ n := by
      have : (-1 : ℚ) < n := lt_of_lt_of_le (lt_of_lt_of_le (by norm_num) (by positivity : (0 : ℚ) ≤ (total : ℚ) / maxSize)) hhi
      have : (-1 : ℤ) < n := by exact_mod_cast this
      omega
    have hq : (total : ℚ) / maxSize ≤ total := div_le_self (by positivity) (by exact_mod_cast h0)
    have hnt : n ≤ total := by
      rw [← hn, Int.ceil_le]; exact_mod_cast hq
    have htz : (total : ℤ) ≤ 2 ^ F.p := by exact_mod_cast ht
    refine ⟨?_, h.le_float (isFloat_int (by omega) (by omega) (by rw [abs_of_nonneg hn0]; omega)) hhi⟩
    by_cases hn1 : n = 0
    · subst hn1
      have : 0 ≤ rnd ((total : ℚ) / maxSize) := h.float_le isFloat_zero (by positivity)
      push_cast; linarith
    by_cases hn2 : n = 1
    · subst hn2
      have htpos : (1 : ℚ) ≤ total := by
        rcases Nat.eq_zero_or_pos total with rfl | hpos
        · simp at hlo
        · exact_mod_cast hpos
      have hone : IsFloat F ((2 : ℚ) ^ F.emin) := by
        have := isFloat_of_le (F := F) (m := 1) (e := F.emin) (by omega) (by simpa using one_le_pow₀ (by norm_num : (1 : ℤ) ≤ 2)) (le_refl _)
        simpa using this
      have : (2 : ℚ) ^ F.emin ≤ (total : ℚ) / maxSize := by
        rw [le_div_iff₀ hms]
        have h1 : (2 : ℚ) ^ F.emin * (2 : ℚ) ^ (-F.emin) = 1 := by rw [← zpow_add₀ (by norm_num : (2 : ℚ) ≠ 0)]; simp
        have := two_pos F.emin
        nlinarith
      have := h.float_le hone this
      have := two_pos F.emin
      push_cast; linarith
    have hk : 1 ≤ n - 1 := by omega
    have hkq : (1 : ℚ) ≤ ((n - 1 : ℤ) : ℚ) := by exact_mod_cast hk
    have hkf : IsFloat F ((n - 1 : ℤ) : ℚ) := isFloat_int (by omega) (by omega) (by rw [abs_of_nonneg (by omega)]; omega)
    have hlo' : ((n - 1 : ℤ) : ℚ) < (total : ℚ) / maxSize := by push_cast; exact hlo
    have hge := h.float_le hkf hlo'.le
    rcases lt_or_eq_of_le hge with hlt | heq
    · push_cast at hlt; exact hlt
    exfalso
    generalize n - 1 = k at *
    obtain ⟨m, e, hm0, hmlt, he, hke, hcase⟩ := isFloat_normal (by omega) hkf (by linarith)
    have hpe := two_pos e
    have hone : (2 : ℚ) ^ (-(F.p : ℤ)) * ((2 ^ F.p : ℤ) : ℚ) = 1 := by
      rw [zpow_neg, zpow_natCast]; push_cast; exact inv_mul_cancel₀ (by positivity)
    have hpp := two_pos (-(F.p : ℤ))
    have h2 : (2 : ℤ) ^ F.p = 2 * 2 ^ (F.p - 1) := by rw [← pow_succ']; congr 1; omega
    have h2q : ((2 ^ F.p : ℤ) : ℚ) = 2 * ((2 ^ (F.p - 1) : ℤ) : ℚ) := by exact_mod_cast h2
    have hbig : 2 ^ (F.p - 1) ≤ m := by
      rcases hcase with hc | hc
      · exfalso
        have hmq : (m : ℚ) < ((2 ^ F.p : ℤ) : ℚ) := by exact_mod_cast hmlt
        have : (2 : ℚ) ^ e ≤ (2 : ℚ) ^ (-(F.p : ℤ)) := zpow_le_zpow_right₀ (by norm_num) (by omega)
        have hmq0 : (0 : ℚ) < m := by exact_mod_cast hm0
        have : ((k : ℤ) : ℚ) < 1 := by
          rw [hke]
          calc (m : ℚ) * (2 : ℚ) ^ e ≤ m * (2 : ℚ) ^ (-(F.p : ℤ)) := by nlinarith
            _ < ((2 ^ F.p : ℤ) : ℚ) * (2 : ℚ) ^ (-(F.p : ℤ)) := by nlinarith
            _ = 1 := by rw [mul_comm, hone]
        linarith
      · exact hc
    have hbigq : ((2 ^ (F.p - 1) : ℤ) : ℚ) ≤ m := by exact_mod_cast hbig
    -- the quotient exceeds `k` by more than half a step
    have hmul : (k : ℚ) * maxSize < total := by rwa [lt_div_iff₀ hms] at hlo'
    have hint : (k : ℚ) * maxSize + 1 ≤ total := by
      have : k * (maxSize : ℤ) < total := by exact_mod_cast hmul
      have : k * (maxSize : ℤ) + 1 ≤ total := by omega
      exact_mod_cast this
    have htq : (total : ℚ) ≤ ((2 ^ F.p : ℤ) : ℚ) := by exact_mod_cast ht
    have hqk : (k : ℚ) + (2 : ℚ) ^ e / 2 < (total : ℚ) / maxSize := by
      rw [lt_div_iff₀ hms]
      -- maxSize * 2^e / 2 < 1
      have h3 : (k : ℚ) * maxSize < ((2 ^ F.p : ℤ) : ℚ) := by linarith
      rw [hke, h2q] at h3
      have hA : ((2 ^ (F.p - 1) : ℤ) : ℚ) * ((2 : ℚ) ^ e * maxSize) < 2 * ((2 ^ (F.p - 1) : ℤ) : ℚ) := by
        have : (0 : ℚ) ≤ (2 : ℚ) ^ e * maxSize := by positivity
        nlinarith
      have hpos : (0 : ℚ) < ((2 ^ (F.p - 1) : ℤ) : ℚ) := by push_cast; positivity
      have hB : (2 : ℚ) ^ e * maxSize < 2 := by
        by_contra hn
        push Not at hn
        nlinarith
      nlinarith
    have hy : IsFloat F (((m + 1 : ℤ) : ℚ) * (2 : ℚ) ^ e) := isFloat_of_le (by omega) (by rw [abs_of_nonneg (by omega)]; omega) he
    have hnear := (h ((total : ℚ) / maxSize)).2 _ hy
    rw [← heq] at hnear
    have hyk : ((m + 1 : ℤ) : ℚ) * (2 : ℚ) ^ e = k + (2 : ℚ) ^ e := by rw [hke]; push_cast; ring
    rw [hyk, abs_of_neg (by linarith)] at hnear
    rcases abs_cases ((k : ℚ) + (2 : ℚ) ^ e - (total : ℚ) / maxSize) with ⟨ea, _⟩ | ⟨ea, _⟩ <;> linarith
  have hceil : ⌈(total : ℚ) / maxSize⌉ = ((total + maxSize - 1) / maxSize : ℕ) := by
    rw [Int.ceil_eq_iff]
    have hdiv := Nat.div_add_mod (total + maxSize - 1) maxSize
    have hmod := Nat.mod_lt (total + maxSize - 1) h0
    generalize (total + maxSize - 1) / maxSize = a at *
    generalize (total + maxSize - 1) % maxSize = b at *
    have hN : maxSize * a + b + 1 = total + maxSize := by omega
    have hQ : (maxSize : ℚ) * a + b + 1 = total + maxSize := by exact_mod_cast hN
    have hbq : (b : ℚ) + 1 ≤ maxSize := by exact_mod_cast hmod
    have hb0 : (0 : ℚ) ≤ b := by positivity
    constructor
    · rw [lt_div_iff₀ hms]; push_cast; nlinarith
    · rw [div_le_iff₀ hms]; push_cast; nlinarith
  have hw : sizesByMax rnd total maxSize = Workload.sizesByMax total maxSize := by
    rw [sizesByMax, Workload.sizesByMax, key, hceil, Int.toNat_natCast]
  rw [key]
  generalize hn : ⌈(total : ℚ) / maxSize⌉ = n
  obtain ⟨hlo, hhi⟩ := Int.ceil_eq_iff.mp hn
  refine ⟨?_, ?_, ?_, hw⟩
  · rw [← hn]; exact Int.ceil_nonneg (by positivity)
  · rw [div_le_iff₀ hms] at hhi; exact_mod_cast hhi
  · rw [lt_div_iff₀ hms] at hlo
    have : ((n - 1 : ℤ) : ℚ) * (maxSize : ℤ) < (total : ℤ) := by push_cast; exact hlo
    exact_mod_cast this

example : (5 : ℕ) ≤ 2 ^ float64.p ∧ ((2 : ℕ) : ℚ) ≤ (2 : ℚ) ^ (-float64.emin) ∧ Workload.sizesByMax 5 2 = .ok [2, 2, 1] := by
  refine ⟨by norm_num [float64], ?_, by decide⟩
  have : (2 : ℚ) ^ (1 : ℤ) ≤ (2 : ℚ) ^ (-float64.emin) := zpow_le_zpow_right₀ (by norm_num) (by norm_num [float64])
  simpa using this

/-- **C161 (partial).** A share `q` of `n` solutions that is a whole number `k` is counted as `k` or as one less, and never outside of 0 to `n`; `rnd q` is the number that the user's ratio is
in the machine. Missing: that it is `k`, which is false (`C161_violated_share`). -/
theorem C161_share_partial (h : Nearest F rnd) (hF : F.Usual) (n : ℕ) (hn : n ≤ 2 ^ (F.p - 1)) (q : ℚ) (h0 : 0 ≤ q) (h1 : q ≤ 1) :
    0 ≤ shareOf rnd n (rnd q) ∧ shareOf rnd n (rnd q) ≤ n ∧
    ∀ k : ℕ, (n : ℚ) * q = k → shareOf rnd n (rnd q) = k ∨ shareOf rnd n (rnd q) = k - 1 := by
  obtain ⟨hp, hemin⟩ := hF
  have h2 : (2 : ℕ) ^ F.p = 2 * 2 ^ (F.p - 1) := by rw [← pow_succ']; congr 1; omega
  have hnp : n ≤ 2 ^ F.p := by omega
  have hnf : IsFloat F (n : ℚ) := isFloat_nat (by omega) (by omega) hnp
  have h1f : IsFloat F 1 := by have := isFloat_nat (F := F) (n := 1) (by omega) (by omega) Nat.one_le_two_pow; simpa using this
  have hr0 : 0 ≤ rnd q := h.float_le isFloat_zero h0
  have hr1 : rnd q ≤ 1 := h.le_float h1f h1
  have hn0 : (0 : ℚ) ≤ n := by positivity
  refine ⟨?_, ?_, ?_⟩
  · rw [shareOf, Int.le_floor]
    exact_mod_cast h.float_le isFloat_zero (mul_nonneg hn0 hr0)
  · have : rnd ((n : ℚ) * rnd q) ≤ n := h.le_float hnf (by nlinarith)
    have h3 := Int.floor_le (rnd ((n : ℚ) * rnd q))
    have : ((shareOf rnd n (rnd q) : ℤ) : ℚ) ≤ (n : ℤ) := by rw [shareOf]; push_cast; linarith
    exact_mod_cast this
  · intro k hk
    have hpp := two_pos (-(F.p : ℤ))
    have hone : (2 : ℚ) ^ (-(F.p : ℤ)) * ((2 ^ F.p : ℤ) : ℚ) = 1 := by
      rw [zpow_neg, zpow_natCast]; push_cast; exact inv_mul_cancel₀ (by positivity)
    have hclose : |rnd q - q| ≤ (2 : ℚ) ^ (-(F.p : ℤ)) / 2 :=
      h.close (by omega) (by omega) (by rw [mul_comm, hone, abs_of_nonneg h0]; exact h1)
    have hkn : k ≤ n := by
      have : (k : ℚ) ≤ n := by rw [← hk]; nlinarith
      exact_mod_cast this
    have hkf : IsFloat F (k : ℚ) := isFloat_nat (by omega) (by omega) (by omega)
    have hnq : (n : ℚ) ≤ ((2 ^ F.p : ℤ) : ℚ) / 2 := by
      have : 2 * n ≤ 2 ^ F.p := by omega
      have : (2 : ℚ) * n ≤ ((2 ^ F.p : ℤ) : ℚ) := by exact_mod_cast this
      linarith
    have hdist : |(k : ℚ) - n * rnd q| < 1 / 2 := by
      rw [← hk]
      have : (n : ℚ) * q - n * rnd q = -(n * (rnd q - q)) := by ring
      rw [this, abs_neg, abs_mul, abs_of_nonneg hn0]
      nlinarith [abs_nonneg (rnd q - q)]
    have hnear := (h ((n : ℚ) * rnd q)).2 _ hkf
    have h4 := abs_lt.mp hdist
    have h5 := abs_lt.mp (lt_of_le_of_lt hnear hdist)
    have hlo : (k : ℚ) - 1 ≤ rnd ((n : ℚ) * rnd q) := by linarith
    have hhi : rnd ((n : ℚ) * rnd q) < k + 1 := by linarith
    have g1 : (k : ℤ) - 1 ≤ shareOf rnd n (rnd q) := by rw [shareOf, Int.le_floor]; push_cast; exact hlo
    have g2 : shareOf rnd n (rnd q) < k + 1 := by rw [shareOf, Int.floor_lt]; push_cast; exact hhi
    omega

/-- **C161 (violated).** With a `parenthood_ratio` of 0.29 and 100 samples, 28 become parents and not 29; so for the `elitism_ratio` of Cosyne. -/
theorem C161_violated_share (h : Nearest float64 rnd) : (100 : ℚ) * (29 / 100) = 29 ∧ shareOf rnd 100 (rnd (29 / 100)) = 28 := by
  refine ⟨by norm_num, ?_⟩
  have hq : rnd (29 / 100) = ((5224175567749775 : ℤ) : ℚ) * (2 : ℚ) ^ (-54 : ℤ) := by
    apply h.eq_of
    · norm_num [float64]
    · norm_num [float64]
    · norm_num [float64]
    · norm_num [float64]
    · norm_num
  have hprod : rnd (((100 : ℕ) : ℚ) * rnd (29 / 100)) = ((8162774324609023 : ℤ) : ℚ) * (2 : ℚ) ^ (-48 : ℤ) := by
    rw [hq]
    apply h.eq_of
    · norm_num [float64]
    · norm_num [float64]
    · norm_num [float64]
    · norm_num [float64]
    · norm_num
  rw [shareOf, hprod, Int.floor_eq_iff]
  constructor <;> norm_num

/-- The combined ranks keep the order of the fronts. -/
theorem combined_lt (h : Nearest F rnd) (hF : F.Usual) (tenth : ℚ) (ht0 : 0 ≤ tenth) (ht1 : tenth ≤ 1 / 4) (n : ℕ) (hn0 : 0 < n) (hn : n ≤ 2 ^ F.p)
    (r r' c c' : ℕ) (hr' : r' < n) (hc : c < n) (hlt : r < r') : combined rnd tenth r c n < combined rnd tenth r' c' n := by
  obtain ⟨hp, hemin⟩ := hF
  have hfix : ∀ k : ℕ, k ≤ n → IsFloat F (k : ℚ) := fun k hk => isFloat_nat (by omega) (by omega) (by omega)
  have hnq : (0 : ℚ) < n := by exact_mod_cast hn0
  have hquarter : ∀ k : ℕ, k ≤ 2 ^ F.p → IsFloat F ((k : ℚ) / 4) := by
    intro k hk
    have := isFloat_of_le (F := F) (m := k) (e := -2) (by omega) (by rw [abs_of_nonneg (by omega)]; exact_mod_cast hk) (by omega)
    have e4 : ((k : ℤ) : ℚ) * (2 : ℚ) ^ (-2 : ℤ) = (k : ℚ) / 4 := by norm_num; ring
    rwa [e4] at this
  have hq1 : IsFloat F ((1 : ℚ) / 4) := by have := hquarter 1 Nat.one_le_two_pow; simpa using this
  rw [combined, combined, h.fix (hfix r (by omega)), h.fix (hfix r' (by omega)), h.fix (hfix n (le_refl _)), h.fix (hfix c (by omega))]
  have hcq : (c : ℚ) ≤ n := by exact_mod_cast hc.le
  have hc0 : (0 : ℚ) ≤ c := by positivity
  have hb : rnd (tenth * c) ≤ n / 4 := h.le_float (hquarter n hn) (by nlinarith)
  have ha : 0 ≤ rnd (tenth * c) := h.float_le isFloat_zero (by positivity)
  have ht : rnd (rnd (tenth * c) / n) ≤ 1 / 4 := h.le_float hq1 (by rw [div_le_iff₀ hnq]; linarith)
  have ht' : 0 ≤ rnd (rnd (tenth * c) / n) := h.float_le isFloat_zero (by positivity)
  generalize rnd (rnd (tenth * c) / n) = t at *
  have hnear := (h ((r : ℚ) + t)).2 _ (hfix r (by omega))
  have e1 : |(r : ℚ) - (r + t)| = t := by rw [show (r : ℚ) - (r + t) = -t by ring, abs_neg, abs_of_nonneg ht']
  rw [e1] at hnear
  have h3 := (abs_le.mp hnear).2
  have hcr : 0 ≤ rnd (tenth * rnd c') := by
    have : (0 : ℚ) ≤ rnd c' := h.float_le isFloat_zero (by positivity)
    exact h.float_le isFloat_zero (by positivity)
  have hct : 0 ≤ rnd (rnd (tenth * rnd c') / n) := h.float_le isFloat_zero (by positivity)
  have h4 : (r' : ℚ) ≤ rnd (r' + rnd (rnd (tenth * rnd c') / n)) := h.float_le (hfix r' (by omega)) (by linarith)
  have h5 : (r : ℚ) + 1 ≤ r' := by exact_mod_cast hlt
  linarith

theorem rank_lt {n m : ℕ} {senses : Fin m → Sense} {evals : Fin n → Fin m → ℚ} {rank : Fin n → ℕ} (h : IsParetoRank senses evals rank) (i : Fin n) : rank i < n := by
  have hbelow : ∀ (d : ℕ), d ≤ rank i → ∃ j, rank j = rank i - d := by
    intro d
    induction d with
    | zero => intro _; exact ⟨i, rfl⟩
    | succ d ih =>
      intro hd
      obtain ⟨j, hj⟩ := ih (by omega)
      clear ih
      have hne : rank j ≠ rank i - (d + 1) := by omega
      have hnot := mt (h j (rank i - (d + 1))).mpr hne
      push Not at hnot
      have hle : rank i - (d + 1) ≤ rank j := by omega
      obtain ⟨k, hk1, hk2⟩ := hnot hle
      clear hnot
      have hno : rank k < rank j := by
        by_contra hc
        exact ((h j (rank j)).mp rfl).2 k (not_lt.mp hc) hk2
      exact ⟨k, by omega⟩
  have hsub : Finset.range (rank i + 1) ⊆ Finset.univ.image rank := by
    intro r hr
    obtain ⟨j, hj⟩ := hbelow (rank i - r) (by omega)
    have := Finset.mem_range.mp hr
    exact Finset.mem_image.mpr ⟨j, Finset.mem_univ _, by omega⟩
  have h1 := Finset.card_le_card hsub
  have h2 : (Finset.univ.image rank).card ≤ n := by simpa using (Finset.card_image_le (s := (Finset.univ : Finset (Fin n))) (f := rank))
  simp at h1
  omega

/-- **C161.** Multi-objective `take_best` never takes a solution while leaving out one of a better front, although it adds the rank and a fraction and rounds the sum: for every rounding
to the nearest, every format, every batch of at most `2 ^ p` solutions and whatever way the crowding was computed. -/
theorem C161_take_best (h : Nearest F rnd) (hF : F.Usual) (tenth : ℚ) (ht0 : 0 ≤ tenth) (ht1 : tenth ≤ 1 / 4) {n m : ℕ} (hn : n ≤ 2 ^ F.p)
    {sortAsc : List ℚ → List ℕ} (ha : ∀ l, IsArgsort (· ≤ ·) l (sortAsc l)) {crowdsort : List (Fin m → ℚ) → List ℕ}
    (hc : ∀ rows, ∀ k ∈ crowdsort rows, k < rows.length) (senses : Fin m → Sense) (evals : Fin n → Fin m → ℚ) (k : ℕ) :
    let taken := takeBest rnd tenth sortAsc crowdsort (Selection.utils senses evals) k
    taken.length = min k n ∧ taken.Nodup ∧ (∀ i ∈ taken, i < n) ∧
    ∃ rank, IsParetoRank senses evals rank ∧ ∀ i j : Fin n, i.1 ∈ taken → j.1 ∉ taken → rank i ≤ rank j := by
  intro taken
  let st := Selection.paretoRanks crowdsort (Selection.utils senses evals)
  let comb : List ℚ := (List.finRange n).map fun i => combined rnd tenth (st.ranks i) (st.crowd i) n
  have hs : IsArgsort (· ≤ ·) comb (sortAsc comb) := ha comb
  have hlen : comb.length = n := by simp [comb]
  have htaken : taken = (sortAsc comb).take k := rfl
  have hrank : IsParetoRank senses evals st.ranks := (Selection.C16_pareto_ranks crowdsort senses evals).2.1
  refine ⟨?_, ?_, ?_, st.ranks, hrank, ?_⟩
  · rw [htaken, List.length_take, hs.length, hlen]
  · rw [htaken]; exact (List.take_sublist k _).nodup hs.nodup
  · intro i hi
    rw [htaken] at hi
    have := hs.lt ((List.take_sublist k _).subset hi)
    omega
  · intro i j hi hj
    rw [htaken] at hi hj
    have hget : ∀ i : Fin n, comb[i.1]? = some (combined rnd tenth (st.ranks i) (st.crowd i) n) := by
      intro i; simp [comb]
    have hle := hs.take_le k hi hj (hget i) (hget j)
    by_contra hlt
    push Not at hlt
    have hcj : st.crowd j < n := by
      obtain ⟨hinv, hall⟩ := Selection.paretoRanks_spec crowdsort (Selection.utils senses evals)
      rw [hinv.crowd j (hall j)]
      have hl := Selection.frontOf_length_le (Selection.paretoRanks crowdsort (Selection.utils senses evals))
        ((Selection.paretoRanks crowdsort (Selection.utils senses evals)).ranks j)
      generalize Selection.frontOf (Selection.paretoRanks crowdsort (Selection.utils senses evals)) _ = G at *
      rw [List.getD_eq_getElem?_getD]
      cases hx : (crowdsort (G.map (Selection.utils senses evals)))[G.idxOf j]? with
      | none => exact j.pos
      | some x =>
        have := hc _ x (List.mem_of_getElem? hx)
        rw [List.length_map] at this
        simp only [Option.getD_some]
        omega
    have := combined_lt h hF tenth ht0 ht1 n i.pos hn (st.ranks j) (st.ranks i) (st.crowd j) (st.crowd i) (rank_lt hrank i) hcj hlt
    linarith

/-- The number that single precision takes for 0.1 is below a quarter; three solutions in two fronts. -/
example : (0 : ℚ) ≤ 13421773 / 2 ^ 27 ∧ (13421773 : ℚ) / 2 ^ 27 ≤ 1 / 4 ∧ (3 : ℕ) ≤ 2 ^ float32.p ∧
    (List.finRange 3).map (Selection.paretoRanks (fun rows : List (Fin 2 → ℚ) => List.range rows.length) (Selection.utils ![.min, .min] ![![1, 2], ![3, 3], ![2, 1]])).ranks = [0, 1, 0] := by
  refine ⟨by norm_num, by norm_num, by norm_num [float32], by decide +kernel⟩

/-- The weights before the rearrangement: in order, apart, and from end to end. -/
theorem weights_rounded (h : Nearest F rnd) (hF : F.Usual) (n : ℕ) (h2 : 2 ≤ n) (hn : n ≤ 2 ^ (F.p - 1)) :
    (∀ i j : ℕ, i < j → j < n → rnd (rnd i / rnd ((n : ℚ) - 1)) < rnd (rnd j / rnd ((n : ℚ) - 1)) ∧
      rnd (rnd (rnd i / rnd ((n : ℚ) - 1)) - 1 / 2) < rnd (rnd (rnd j / rnd ((n : ℚ) - 1)) - 1 / 2)) ∧
    (∀ i : ℕ, i < n → 0 ≤ rnd (rnd i / rnd ((n : ℚ) - 1)) ∧ rnd (rnd i / rnd ((n : ℚ) - 1)) ≤ 1 ∧
      -1 / 2 ≤ rnd (rnd (rnd i / rnd ((n : ℚ) - 1)) - 1 / 2) ∧ rnd (rnd (rnd i / rnd ((n : ℚ) - 1)) - 1 / 2) ≤ 1 / 2) ∧
    rnd (rnd ((0 : ℕ) : ℚ) / rnd ((n : ℚ) - 1)) = 0 ∧ rnd (rnd ((n - 1 : ℕ) : ℚ) / rnd ((n : ℚ) - 1)) = 1 ∧
    rnd (0 - 1 / 2) = -1 / 2 ∧ rnd (1 - 1 / 2) = 1 / 2 := by
  obtain ⟨hp, hemin⟩ := hF
  have hpow : (2 : ℕ) ^ F.p = 2 * 2 ^ (F.p - 1) := by rw [← pow_succ']; congr 1; omega
  have hfix : ∀ k : ℕ, k ≤ n → IsFloat F (k : ℚ) := fun k hk => isFloat_nat (by omega) (by omega) (by omega)
  have hn1 : rnd ((n : ℚ) - 1) = (n : ℚ) - 1 := by
    have := h.fix (hfix (n - 1) (by omega))
    rwa [Nat.cast_sub (by omega), Nat.cast_one] at this
  have hnq : (0 : ℚ) < (n : ℚ) - 1 := by
    have : (2 : ℚ) ≤ n := by exact_mod_cast h2
    linarith
  have h1f : IsFloat F 1 := by have := isFloat_nat (F := F) (n := 1) (by omega) (by omega) Nat.one_le_two_pow; simpa using this
  have hhf : IsFloat F (1 / 2) := by
    have := isFloat_of_le (F := F) (m := 1) (e := -1) (by omega) (by simpa using one_le_pow₀ (by norm_num : (1 : ℤ) ≤ 2)) (by omega)
    norm_num at this ⊢
    exact this
  have hhf' : IsFloat F (-1 / 2) := by
    have := isFloat_neg hhf
    rwa [neg_div'] at this
  have hpp := two_pos (-(F.p : ℤ))
  have hone : (2 : ℚ) ^ (-(F.p : ℤ)) * ((2 ^ F.p : ℤ) : ℚ) = 1 := by
    rw [zpow_neg, zpow_natCast]; push_cast; exact inv_mul_cancel₀ (by positivity)
  have hrange : ∀ i : ℕ, i < n → (0 : ℚ) ≤ i / ((n : ℚ) - 1) ∧ i / ((n : ℚ) - 1) ≤ 1 := by
    intro i hi
    refine ⟨by positivity, ?_⟩
    rw [div_le_one hnq]
    have : (i : ℚ) + 1 ≤ n := by exact_mod_cast hi
    linarith
  have hW : ∀ i : ℕ, i < n → 0 ≤ rnd (i / ((n : ℚ) - 1)) ∧ rnd (i / ((n : ℚ) - 1)) ≤ 1 ∧ |rnd (i / ((n : ℚ) - 1)) - i / ((n : ℚ) - 1)| ≤ (2 : ℚ) ^ (-(F.p : ℤ)) / 2 := by
    intro i hi
    obtain ⟨ra, rb⟩ := hrange i hi
    exact ⟨h.float_le isFloat_zero ra, h.le_float h1f rb, h.close (by omega) (by omega) (by rw [mul_comm, hone, abs_of_nonneg ra]; exact rb)⟩
  have hC : ∀ w : ℚ, 0 ≤ w → w ≤ 1 → |rnd (w - 1 / 2) - (w - 1 / 2)| ≤ (2 : ℚ) ^ (-(F.p : ℤ)) / 2 := by
    intro w w0 w1
    apply h.close (by omega) (by omega)
    rw [mul_comm, hone, abs_le]
    constructor <;> linarith
  have hsmall : 2 * (2 : ℚ) ^ (-(F.p : ℤ)) < 1 / ((n : ℚ) - 1) := by
    rw [lt_div_iff₀ hnq]
    have : 2 * n ≤ 2 ^ F.p := by omega
    have : (2 : ℚ) * n ≤ ((2 ^ F.p : ℤ) : ℚ) := by exact_mod_cast this
    nlinarith
  refine ⟨?_, ?_, ?_, ?_, ?_, ?_⟩
  · intro i j hij hj
    rw [hn1, h.fix (hfix i (by omega)), h.fix (hfix j (by omega))]
    obtain ⟨i0, i1, ic⟩ := hW i (by omega)
    obtain ⟨j0, j1, jc⟩ := hW j hj
    have ci := abs_le.mp (hC _ i0 i1)
    have cj := abs_le.mp (hC _ j0 j1)
    have hgap : (i : ℚ) / ((n : ℚ) - 1) + 1 / ((n : ℚ) - 1) ≤ j / ((n : ℚ) - 1) := by
      rw [← add_div]
      have : (i : ℚ) + 1 ≤ j := by exact_mod_cast hij
      exact (div_le_div_iff_of_pos_right hnq).mpr this
    rw [abs_le] at ic jc
    constructor <;> linarith
  · intro i hi
    rw [hn1, h.fix (hfix i (by omega))]
    obtain ⟨i0, i1, _⟩ := hW i hi
    exact ⟨i0, i1, h.float_le hhf' (by linarith), h.le_float hhf (by linarith)⟩
  · simp [h.zero]
  · rw [hn1, h.fix (hfix (n - 1) (by omega)), Nat.cast_sub (by omega), Nat.cast_one, div_self (ne_of_gt hnq)]
    exact h.fix h1f
  · rw [show (0 : ℚ) - 1 / 2 = -1 / 2 by norm_num]; exact h.fix hhf'
  · rw [show (1 : ℚ) - 1 / 2 = 1 / 2 by norm_num]; exact h.fix hhf

/-- A list of weights in increasing order, given to the sorted fitnesses. -/
theorem scattered_order {sort : Sorter ℚ} (h : SorterSpec sort) (hib : Bool) (junk x : List ℚ) (hj : junk.length = x.length) (g : ℕ → ℚ)
    (hg : ∀ i j : ℕ, i < j → j < x.length → g i < g j) (i j : ℕ) (a b wa wb : ℚ) (hx : x[i]? = some a) (hy : x[j]? = some b) (hb : Ranking.Better hib a b)
    (hwa : (Ranking.scatter junk (sort (!hib) x) ((List.range x.length).map g))[i]? = some wa)
    (hwb : (Ranking.scatter junk (sort (!hib) x) ((List.range x.length).map g))[j]? = some wb) : wb < wa := by
  obtain ⟨hi, _⟩ := List.getElem?_eq_some_iff.mp hx
  obtain ⟨hj', _⟩ := List.getElem?_eq_some_iff.mp hy
  obtain ⟨pa, hpa⟩ := Ranking.sort_pos h (!hib) x hi
  obtain ⟨pb, hpb⟩ := Ranking.sort_pos h (!hib) x hj'
  have hlt := Ranking.pos_of_better h hib x hpa hpb hx hy hb
  rw [Ranking.scatter_sort h _ x (by simp) hj hpa] at hwa
  rw [Ranking.scatter_sort h _ x (by simp) hj hpb] at hwb
  have hpaL := (List.getElem?_eq_some_iff.mp hwa).1
  have hpbL := (List.getElem?_eq_some_iff.mp hwb).1
  simp only [List.length_map, List.length_range] at hpaL hpbL
  rw [List.getElem?_map, List.getElem?_range hpaL] at hwa
  rw [List.getElem?_map, List.getElem?_range hpbL] at hwb
  cases hwa; cases hwb
  exact hg _ _ hlt hpaL

/-- **C161.** The weights of centered ranking in floating point: a strictly better fitness has a strictly larger weight, all weights lie in [-1/2, 1/2], and both ends are
reached exactly; and so for linear ranking and [0, 1]. For at most `2 ^ (p - 1)` fitnesses, every format, every rounding to the nearest and every order of ties. -/
theorem C161_ranking (h : Nearest F rnd) (hF : F.Usual) {sort : Sorter ℚ} (hs : SorterSpec sort) (hib : Bool) (junk x : List ℚ) (hj : junk.length = x.length) (h2 : 2 ≤ x.length)
    (hn : x.length ≤ 2 ^ (F.p - 1)) :
    (∀ (i j : ℕ) a b wa wb, x[i]? = some a → x[j]? = some b → Ranking.Better hib a b → (centered rnd sort hib junk x)[i]? = some wa → (centered rnd sort hib junk x)[j]? = some wb → wb < wa) ∧
    (∀ (i j : ℕ) a b wa wb, x[i]? = some a → x[j]? = some b → Ranking.Better hib a b → (linear rnd sort hib junk x)[i]? = some wa → (linear rnd sort hib junk x)[j]? = some wb → wb < wa) ∧
    (centered rnd sort hib junk x).length = x.length ∧ (linear rnd sort hib junk x).length = x.length ∧
    (∀ w ∈ centered rnd sort hib junk x, -1 / 2 ≤ w ∧ w ≤ 1 / 2) ∧ (∀ w ∈ linear rnd sort hib junk x, 0 ≤ w ∧ w ≤ 1) ∧
    -1 / 2 ∈ centered rnd sort hib junk x ∧ 1 / 2 ∈ centered rnd sort hib junk x ∧ 0 ∈ linear rnd sort hib junk x ∧ 1 ∈ linear rnd sort hib junk x := by
  obtain ⟨hord, hran, hz, ho, hcz, hco⟩ := weights_rounded h hF x.length h2 hn
  have hpc : (centered rnd sort hib junk x).Perm (centeredWeights rnd x.length) := Ranking.scatter_perm (Ranking.sort_perm hs (!hib) x) (by simp [centeredWeights]) hj
  have hpl : (linear rnd sort hib junk x).Perm (linearWeights rnd x.length) := Ranking.scatter_perm (Ranking.sort_perm hs (!hib) x) (by simp [linearWeights]) hj
  refine ⟨?_, ?_, ?_, ?_, ?_, ?_, ?_, ?_, ?_, ?_⟩
  · intro i j a b wa wb hx hy hb hwa hwb
    exact scattered_order hs hib junk x hj _ (fun i j hij hj => (hord i j hij hj).2) i j a b wa wb hx hy hb hwa hwb
  · intro i j a b wa wb hx hy hb hwa hwb
    exact scattered_order hs hib junk x hj _ (fun i j hij hj => (hord i j hij hj).1) i j a b wa wb hx hy hb hwa hwb
  · rw [hpc.length_eq]; simp [centeredWeights]
  · rw [hpl.length_eq]; simp [linearWeights]
  · intro w hw
    obtain ⟨i, hi, rfl⟩ := List.mem_map.mp (hpc.mem_iff.mp hw)
    exact ⟨(hran i (List.mem_range.mp hi)).2.2.1, (hran i (List.mem_range.mp hi)).2.2.2⟩
  · intro w hw
    obtain ⟨i, hi, rfl⟩ := List.mem_map.mp (hpl.mem_iff.mp hw)
    exact ⟨(hran i (List.mem_range.mp hi)).1, (hran i (List.mem_range.mp hi)).2.1⟩
  · exact hpc.mem_iff.mpr (List.mem_map.mpr ⟨0, List.mem_range.mpr (by omega), by rw [hz]; exact hcz⟩)
  · exact hpc.mem_iff.mpr (List.mem_map.mpr ⟨x.length - 1, List.mem_range.mpr (by omega), by rw [ho]; exact hco⟩)
  · exact hpl.mem_iff.mpr (List.mem_map.mpr ⟨0, List.mem_range.mpr (by omega), hz⟩)
  · exact hpl.mem_iff.mpr (List.mem_map.mpr ⟨x.length - 1, List.mem_range.mpr (by omega), ho⟩)

/-- Three fitnesses in single precision, and a sorter. -/
example : SorterSpec (Selection.exampleSorter : Sorter ℚ) ∧ 2 ≤ [(3 : ℚ), 1, 2].length ∧ [(3 : ℚ), 1, 2].length ≤ 2 ^ (float32.p - 1) ∧ Ranking.Better true (3 : ℚ) 1 :=
  ⟨Selection.exampleSorter_spec, by simp, by norm_num [float32], by simp [Ranking.Better]⟩

end EvoTorch.Rounding
