import Verif.Model.RandomTensors
import Mathlib.Tactic.Linarith
import Mathlib.Tactic.Ring
import Mathlib.Tactic.FieldSimp
import Mathlib.Tactic.IntervalCases
import Mathlib.Data.Fin.VecNotation
/-! Properties C69 (uniform sampling stays in range and covers it) and C87 (Gaussian sampling: symmetric rows mirror each other). -/
namespace EvoTorch.RandomTensors
open EvoTorch

/-- The number is representable. -/
def InType (t : IntType) (x : ℤ) : Prop := t.min ≤ x ∧ x ≤ t.max

/-- A word which `random_` can draw: between zero and the largest number. -/
def RawWord (t : IntType) (x : ℤ) : Prop := 0 ≤ x ∧ x ≤ t.max

theorem wrap_of_inType (t : IntType) (ht : 0 < t.bits) {x : ℤ} (h : InType t x) : t.wrap x = x := by
  obtain ⟨s, b⟩ := t
  obtain ⟨b, rfl⟩ : ∃ c, b = c + 1 := ⟨b - 1, by simp at ht; omega⟩
  obtain ⟨h1, h2⟩ := h
  have hpos : (0 : ℤ) < 2 ^ b := by positivity
  cases s with
  | true =>
    simp only [IntType.min, IntType.max, IntType.wrap, if_true, Nat.add_sub_cancel] at *
    have e : (((2 ^ (b + 1) : ℕ)) : ℤ) = 2 ^ b * 2 := by push_cast; ring
    apply Int.bmod_eq_of_le
    · rw [e]; omega
    · rw [e]; omega
  | false =>
    simp only [IntType.min, IntType.max, IntType.wrap, Bool.false_eq_true, if_false] at *
    exact Int.emod_eq_of_lt h1 (by omega)

/-- The width `ub - lb + 1` of the requested range fits in the type. -/
structure Fits (t : IntType) (lb ub : ℤ) : Prop where
  bits : 0 < t.bits
  lbIn : InType t lb
  ubIn : InType t ub
  le : lb ≤ ub
  width : ub - lb + 1 ≤ t.max

theorem min_le_zero (t : IntType) : t.min ≤ 0 := by
  unfold IntType.min; split
  · have : (0 : ℤ) < 2 ^ (t.bits - 1) := by positivity
    omega
  · exact le_rfl

theorem min_ge (t : IntType) : -(t.max + 1) ≤ t.min := by
  unfold IntType.min IntType.max; split
  · omega
  · have : (0 : ℤ) < 2 ^ t.bits := by positivity
    omega

theorem diff_eq {t : IntType} {lb ub : ℤ} (h : Fits t lb ub) : diff t lb ub = ub - lb + 1 := by
  have h0 := min_le_zero t
  have := h.le; have := h.width
  unfold diff
  rw [wrap_of_inType t h.bits (x := ub - lb) ⟨by omega, by omega⟩, wrap_of_inType t h.bits ⟨by omega, by omega⟩]

theorem scale_eq {t : IntType} {lb ub : ℤ} (h : Fits t lb ub) (raw : ℤ) :
    scale t lb ub raw = Int.fmod (t.wrap (raw - lb)) (ub - lb + 1) + lb ∧ lb ≤ scale t lb ub raw ∧ scale t lb ub raw ≤ ub := by
  have hd : 0 < ub - lb + 1 := by have := h.le; omega
  have h1 := Int.fmod_nonneg_of_pos (t.wrap (raw - lb)) hd
  have h2 := Int.fmod_lt_of_pos (t.wrap (raw - lb)) hd
  have e : scale t lb ub raw = Int.fmod (t.wrap (raw - lb)) (ub - lb + 1) + lb := by
    unfold scale
    rw [diff_eq h]
    apply wrap_of_inType t h.bits
    have := h.lbIn.1; have := h.ubIn.2
    exact ⟨by omega, by omega⟩
  exact ⟨e, by omega, by omega⟩

/-- **C69 (partial).** With an integer dtype, if the width of every requested range is at most the largest number of the dtype, `make_uniform` succeeds and
every element is in its range, whatever the raw words. -/
theorem C69_in_range_partial (t : IntType) {k : ℕ} (lb ub raw : Fin k → ℤ) (h : ∀ i, Fits t (lb i) (ub i)) :
    ∃ out, uniformInt t (some lb) (some ub) raw = .ok out ∧ ∀ i, lb i ≤ out i ∧ out i ≤ ub i := by
  refine ⟨fun i => scale t (lb i) (ub i) (raw i), ?_, fun i => (scale_eq (h i) (raw i)).2⟩
  dsimp only [uniformInt]
  rw [if_neg]
  rintro ⟨i, hi⟩
  rw [diff_eq (h i)] at hi
  have := (h i).le
  omega

/-- **C69 (partial).** If in addition the lower bounds are non-negative, or not so negative that `ub - 2 * lb` overflows, then every tensor with elements in range
is returned for some raw words. -/
theorem C69_reachable_partial (t : IntType) {k : ℕ} (lb ub v : Fin k → ℤ) (h : ∀ i, Fits t (lb i) (ub i))
    (hlow : ∀ i, 0 ≤ lb i ∨ ub i - 2 * lb i ≤ t.max) (hv : ∀ i, lb i ≤ v i ∧ v i ≤ ub i) :
    ∃ raw : Fin k → ℤ, (∀ i, RawWord t (raw i)) ∧ uniformInt t (some lb) (some ub) raw = .ok v := by
  have key : ∀ i, ∃ r, RawWord t r ∧ scale t (lb i) (ub i) r = v i := by
    intro i
    have hf := h i
    have hd : 0 < ub i - lb i + 1 := by have := hf.le; omega
    have h0 := min_le_zero t
    obtain ⟨v1, v2⟩ := hv i
    have := hf.width; have hub := hf.ubIn.2
    by_cases hneg : 0 ≤ v i
    · refine ⟨v i, ⟨hneg, by omega⟩, ?_⟩
      rw [(scale_eq hf _).1, wrap_of_inType t hf.bits ⟨by omega, by omega⟩, Int.fmod_eq_of_lt (by omega) (by omega)]
      omega
    · have hl : ub i - 2 * lb i ≤ t.max := by
        rcases hlow i with h | h
        · omega
        · exact h
      have m1 := Int.emod_nonneg (v i) hd.ne'
      have m2 := Int.emod_lt_of_pos (v i) hd
      refine ⟨v i % (ub i - lb i + 1), ⟨m1, by omega⟩, ?_⟩
      rw [(scale_eq hf _).1, wrap_of_inType t hf.bits ⟨by omega, by omega⟩, Int.fmod_eq_emod_of_nonneg _ hd.le, Int.emod_sub_emod,
        Int.emod_eq_of_lt (by omega) (by omega)]
      omega
  choose r hr1 hr2 using key
  refine ⟨r, hr1, ?_⟩
  have hne : ¬ ∃ i, diff t (lb i) (ub i) = 0 := by
    rintro ⟨i, hi⟩
    rw [diff_eq (h i)] at hi
    have := (h i).le
    omega
  simp only [uniformInt, hne, if_false]
  exact congrArg Except.ok (funext hr2)

example : Fits int8 (-10) 20 ∧ (20 : ℤ) - 2 * (-10) ≤ int8.max :=
  ⟨⟨by decide, by unfold InType; decide, by unfold InType; decide, by decide, by decide⟩, by decide⟩

/-- **C69.** Without bounds an integer result is 0 or 1 and each is possible. -/
theorem C69_no_bounds (t : IntType) (ht : 1 ≤ t.max) {k : ℕ} :
    (∀ raw : Fin k → ℤ, ∃ out, uniformInt t none none raw = .ok out ∧ ∀ i, out i = 0 ∨ out i = 1) ∧
    (∀ v : Fin k → ℤ, (∀ i, v i = 0 ∨ v i = 1) → ∃ raw, (∀ i, RawWord t (raw i)) ∧ uniformInt t none none raw = .ok v) := by
  refine ⟨fun raw => ⟨_, rfl, fun i => ?_⟩, fun v hv => ⟨v, fun i => ?_, ?_⟩⟩
  · have h1 := Int.fmod_nonneg_of_pos (raw i) (b := 2) (by decide)
    have h2 := Int.fmod_lt_of_pos (raw i) (b := 2) (by decide)
    omega
  · rcases hv i with h | h <;> rw [h] <;> exact ⟨by omega, by omega⟩
  · refine congrArg Except.ok (funext fun i => ?_)
    rcases hv i with h | h <;> rw [h] <;> rfl

example : 1 ≤ int64.max := by decide

/-- **C69.** `make_randint(n)` returns numbers in `[0, n)`, and each tensor of such numbers for some raw words. -/
theorem C69_randint (t : IntType) (n : ℤ) (hn : 1 ≤ n) (hmax : n ≤ t.max + 1) {ι : Type} :
    (∀ raw : ι → ℤ, ∃ out, randint n raw = .ok out ∧ ∀ i, 0 ≤ out i ∧ out i < n) ∧
    (∀ v : ι → ℤ, (∀ i, 0 ≤ v i ∧ v i < n) → ∃ raw, (∀ i, RawWord t (raw i)) ∧ randint n raw = .ok v) := by
  have hne : n ≠ 0 := by omega
  refine ⟨fun raw => ⟨fun i => Int.fmod (raw i) n, by simp [randint, hne], fun i =>
    ⟨Int.fmod_nonneg_of_pos _ (by omega), Int.fmod_lt_of_pos _ (by omega)⟩⟩, fun v hv => ⟨v, fun i => ?_, ?_⟩⟩
  · exact ⟨(hv i).1, by have := (hv i).2; omega⟩
  · simp only [randint, hne, if_false]
    exact congrArg Except.ok (funext fun i => Int.fmod_eq_of_lt (hv i).1 (hv i).2)

example : (1 : ℤ) ≤ 100 ∧ (100 : ℤ) ≤ int8.max + 1 := by decide

/-- **C69.** For booleans: the result is between the bounds, and both values are possible where the bounds are False and True. -/
theorem C69_bool {ι : Type} (lb ub : ι → Bool) (h : ∀ i, lb i = true → ub i = true) :
    (∀ raw, ∃ out, uniformBool (some lb) (some ub) raw = .ok out ∧ ∀ i, lb i ≤ out i ∧ out i ≤ ub i) ∧
    (∀ v : ι → Bool, (∀ i, lb i ≤ v i ∧ v i ≤ ub i) → ∃ raw, uniformBool (some lb) (some ub) raw = .ok v) := by
  refine ⟨fun raw => ⟨_, rfl, fun i => ?_⟩, fun v hv => ⟨v, congrArg Except.ok (funext fun i => ?_)⟩⟩
  · have := h i
    revert this
    generalize lb i = a; generalize ub i = b; generalize raw i = c
    revert a b c; decide
  · have := h i; have h2 := hv i
    revert this h2
    generalize lb i = a; generalize ub i = b; generalize v i = c
    revert a b c; decide

example : ∀ i : Fin 3, (![false, false, true] i) = true → (![false, true, true] i) = true := by decide

/-- **C69.** For floats (exact arithmetic): with draws from `[0, 1)` the result is in `[lb, ub)` (or is `lb` if they are equal), and everything there is possible. -/
theorem C69_float {ι K : Type} [Field K] [LinearOrder K] [IsStrictOrderedRing K] (lb ub : ι → K) (h : ∀ i, lb i < ub i) :
    (∀ raw : ι → K, (∀ i, 0 ≤ raw i ∧ raw i < 1) → ∃ out, uniformFloat (some lb) (some ub) raw = .ok out ∧ ∀ i, lb i ≤ out i ∧ out i < ub i) ∧
    (∀ v : ι → K, (∀ i, lb i ≤ v i ∧ v i < ub i) → ∃ raw, (∀ i, 0 ≤ raw i ∧ raw i < 1) ∧ uniformFloat (some lb) (some ub) raw = .ok v) := by
  refine ⟨fun raw hr => ⟨_, rfl, fun i => ?_⟩, fun v hv => ⟨fun i => (v i - lb i) / (ub i - lb i), fun i => ?_, congrArg Except.ok (funext fun i => ?_)⟩⟩
  · have hd : 0 < ub i - lb i := sub_pos.2 (h i)
    have h1 := mul_nonneg (hr i).1 hd.le
    have h2 := mul_lt_mul_of_pos_right (hr i).2 hd
    exact ⟨by linarith, by linarith⟩
  · have hd : 0 < ub i - lb i := sub_pos.2 (h i)
    refine ⟨div_nonneg (by linarith [(hv i).1]) hd.le, ?_⟩
    rw [div_lt_one hd]
    linarith [(hv i).2]
  · have hd : ub i - lb i ≠ 0 := (sub_pos.2 (h i)).ne'
    field_simp
    ring

example : ∀ i : Fin 2, (![-1, 0] i : ℤ) < ![1, 5] i := by decide

/-- **C69.** Giving only one bound is refused, for every dtype. -/
theorem C69_one_bound (t : IntType) {k : ℕ} (b raw : Fin k → ℤ) {ι K : Type} [Field K] (c r : ι → K) (d s : ι → Bool) :
    uniformInt t (some b) none raw = .error .valueError ∧ uniformInt t none (some b) raw = .error .valueError ∧
    uniformFloat (some c) none r = .error .valueError ∧ uniformFloat none (some c) r = .error .valueError ∧
    uniformBool (some d) none s = .error .valueError ∧ uniformBool none (some d) s = .error .valueError :=
  ⟨rfl, rfl, rfl, rfl, rfl, rfl⟩

/-! ### Where the full property fails: the arithmetic is done in the dtype of the result -/

/-- **C69 violated.** The full range of a dtype cannot be requested: its width wraps to zero. -/
theorem C69_violated_full_range (raw : Fin 1 → ℤ) :
    uniformInt int8 (some ![-128]) (some ![127]) raw = .error .runtimeError ∧
    uniformInt uint8 (some ![0]) (some ![255]) raw = .error .runtimeError := by
  constructor
  · rw [uniformInt, if_pos]; exact ⟨0, by decide⟩
  · rw [uniformInt, if_pos]; exact ⟨0, by decide⟩

/-- **C69 violated.** With int8 and bounds -100 and 100 the results leave the range: the raw word 0 gives -110. -/
theorem C69_violated_out_of_range : uniformInt int8 (some ![-100]) (some ![100]) ![0] = .ok ![-110] := by
  rw [uniformInt, if_neg]
  · refine congrArg Except.ok (funext fun i => ?_)
    obtain rfl : i = 0 := Subsingleton.elim _ _
    decide
  · rintro ⟨i, hi⟩
    obtain rfl : i = 0 := Subsingleton.elim _ _
    revert hi; decide

/-- **C69 violated.** With int8 and bounds -100 and 0, all results are in range but no raw word gives -27. -/
theorem C69_violated_unreachable (raw : Fin 1 → ℤ) (h : RawWord int8 (raw 0)) : uniformInt int8 (some ![-100]) (some ![0]) raw ≠ .ok ![-27] := by
  intro hc
  rw [uniformInt, if_neg] at hc
  · have h2 := congrFun (Except.ok.inj hc) 0
    have key : ∀ n : Fin 128, scale int8 (-100) 0 (n : ℕ) ≠ -27 := by decide +kernel
    obtain ⟨h3, h4⟩ := h
    have hm : int8.max = 127 := by decide
    rw [hm] at h4
    have := key ⟨(raw 0).toNat, by omega⟩
    apply this
    have e : (((raw 0).toNat : ℕ) : ℤ) = raw 0 := Int.toNat_of_nonneg h3
    simp only [e]
    exact h2
  · rintro ⟨i, hi⟩
    obtain rfl : i = 0 := Subsingleton.elim _ _
    revert hi; decide

/-! ### Gaussian sampling -/

/-- **C87.** `make_gaussian` with `symmetric=True` and an even number of rows: each even row is `center + stdev * z` for its own draws `z`, and the row after it
`center - stdev * z` for the same draws; so with common center and deviation the two rows mirror each other around the center. -/
theorem C87_symmetric {ι K : Type} [Field K] (m : ℕ) (center stdev raw : ℕ → ι → K) :
    ∃ out : Fin (2 * m) → ι → K, gaussian (2 * m) true (some center) (some stdev) raw = .ok out ∧
      ∀ (i : ℕ) (h0 : 2 * i < 2 * m) (h1 : 2 * i + 1 < 2 * m) (j : ι),
        out ⟨2 * i, h0⟩ j = center (2 * i) j + stdev (2 * i) j * raw (2 * i) j ∧
        out ⟨2 * i + 1, h1⟩ j = center (2 * i + 1) j - stdev (2 * i + 1) j * raw (2 * i) j ∧
        (center (2 * i) = center (2 * i + 1) → stdev (2 * i) = stdev (2 * i + 1) →
          out ⟨2 * i, h0⟩ j - center (2 * i) j = -(out ⟨2 * i + 1, h1⟩ j - center (2 * i) j)) := by
  refine ⟨fun i j => mirrored raw i j * stdev i j + center i j, by simp [gaussian], fun i h0 h1 j => ?_⟩
  have e0 : mirrored raw (2 * i) j = raw (2 * i) j := by simp [mirrored]
  have e1 : mirrored raw (2 * i + 1) j = -raw (2 * i) j := by
    simp [mirrored]
  simp only [e0, e1]
  refine ⟨by ring, by ring, fun hc hs => ?_⟩
  rw [hc, hs]; ring

/-- **C87.** An odd number of rows is refused if symmetric; only one of center and stdev is refused always; without symmetry the rows are
`center + stdev * z` for their own draws. -/
theorem C87_cases {ι K : Type} [Field K] (n : ℕ) (center stdev raw : ℕ → ι → K) (co so : Option (ℕ → ι → K)) :
    (n % 2 = 1 → gaussian n true co so raw = .error .valueError) ∧
    (∀ s, gaussian n s (some center) none raw = .error .valueError ∧ gaussian n s none (some stdev) raw = .error .valueError) ∧
    (∃ out, gaussian n false (some center) (some stdev) raw = .ok out ∧ ∀ i j, out i j = center i j + stdev i j * raw i j) ∧
    gaussian n false none none raw = .ok fun i => raw i := by
  refine ⟨fun h => by simp [gaussian, h], fun s => ?_, ⟨fun i j => raw i j * stdev i j + center i j, by simp [gaussian], fun i j => by ring⟩, by simp [gaussian]⟩
  unfold gaussian
  cases (s && decide (n % 2 ≠ 0)) <;> simp

example : (3 : ℕ) % 2 = 1 := rfl

end EvoTorch.RandomTensors
