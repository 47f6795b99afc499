import Verif.Model.Chances
import Verif.Proofs.Chances
import Verif.Props.RandomTensors
import Mathlib.Data.Fin.Tuple.Basic
import Mathlib.Tactic.NormNum
/-! Property C162: random choices have the chances they should. The words which the generator returns are equally likely and independent. -/
namespace EvoTorch.Chances
open EvoTorch EvoTorch.RandomTensors EvoTorch.Spec.Chances Finset

/-! ### Random integers -/

theorem words_eq (t : IntType) : words t = Finset.Ico 0 (t.max + 1) := by
  ext x; simp [words, Int.lt_add_one_iff]

theorem max_nonneg (t : IntType) : 0 ≤ t.max := by
  unfold IntType.max; split
  · have : (1 : ℤ) ≤ 2 ^ (t.bits - 1) := one_le_pow₀ (by norm_num)
    omega
  · have : (1 : ℤ) ≤ 2 ^ t.bits := one_le_pow₀ (by norm_num)
    omega

theorem words_card (t : IntType) : ((words t).card : ℚ) = t.max + 1 := by
  have h := max_nonneg t
  rw [words_eq, Int.card_Ico, ← Int.cast_natCast, Int.toNat_of_nonneg (by omega)]
  push_cast; ring

theorem words_nonempty (t : IntType) : (words t).Nonempty := ⟨0, by simp [words, max_nonneg t]⟩

theorem fmod_iff {n v x : ℤ} (hn : 0 < n) (h0 : 0 ≤ v) (h1 : v < n) : Int.fmod x n = v ↔ x ≡ v [ZMOD n] := by
  rw [Int.fmod_eq_emod_of_nonneg x hn.le, Int.ModEq, Int.emod_eq_of_lt h0 h1]

/-- From counts to chances. -/
theorem chance_close {t : IntType} {P : ℤ → Prop} [DecidablePred P] {d : ℤ} (hd : 0 < d) {e : ℚ}
    (h : |(((words t).filter P).card : ℚ) - ((t.max : ℚ) + 1) / d| < e) : |chance (words t) P - 1 / d| < e / (t.max + 1) := by
  have hM : (0 : ℚ) < (t.max : ℚ) + 1 := by
    have := max_nonneg t
    exact_mod_cast (by omega : 0 < t.max + 1)
  have hdq : (d : ℚ) ≠ 0 := by exact_mod_cast hd.ne'
  have e1 : chance (words t) P - 1 / d = ((((words t).filter P).card : ℚ) - ((t.max : ℚ) + 1) / d) / (t.max + 1) := by
    rw [chance_eq, words_card]
    field_simp
  rw [e1, abs_div, abs_of_pos hM]
  exact div_lt_div_of_pos_right h hM

/-- **C162: random integers.** `make_randint` with `n` up to the number of words: every value below `n` appears, for each element of the tensor, with a chance
which differs from `1 / n` by less than one word, and is exactly `1 / n` if `n` divides the number of words. -/
theorem C162_randint {ι : Type} [Fintype ι] [DecidableEq ι] (t : IntType) (n v : ℤ) (hn : 1 ≤ n) (h0 : 0 ≤ v) (h1 : v < n) (i : ι) :
    |chance (draws (words t)) (fun raw : ι → ℤ => ∃ out, randint n raw = .ok out ∧ out i = v) - 1 / n| < 1 / ((t.max : ℚ) + 1) ∧
    (n ∣ t.max + 1 → chance (draws (words t)) (fun raw : ι → ℤ => ∃ out, randint n raw = .ok out ∧ out i = v) = 1 / n) := by
  have hpos : 0 < n := by omega
  have e : chance (draws (words t)) (fun raw : ι → ℤ => ∃ out, randint n raw = .ok out ∧ out i = v) = chance (words t) fun w => w ≡ v [ZMOD n] := by
    rw [← chance_one (words_nonempty t) i]
    apply chance_congr
    intro raw _
    rw [← fmod_iff hpos h0 h1]
    simp [randint, hpos.ne']
  have hM := max_nonneg t
  have hc := count_residue 0 (t.max + 1) (by omega) n v hpos
  rw [e]
  have hc' : |(((words t).filter fun w => w ≡ v [ZMOD n]).card : ℚ) - ((t.max : ℚ) + 1) / n| < 1 := by
    rw [words_eq]
    push_cast at hc
    simpa using hc
  refine ⟨chance_close hpos hc', ?_⟩
  rintro ⟨k, hk⟩
  have hnq : (n : ℚ) ≠ 0 := by exact_mod_cast hpos.ne'
  have hkq : ((t.max : ℚ) + 1) = n * k := by exact_mod_cast hk
  have hMq : ((t.max : ℚ) + 1) ≠ 0 := by exact_mod_cast (by omega : t.max + 1 ≠ 0)
  rw [hkq, mul_div_cancel_left₀ _ hnq] at hc'
  have : ((((words t).filter fun w => w ≡ v [ZMOD n]).card : ℤ)) = k := by
    have h2 : |((((words t).filter fun w => w ≡ v [ZMOD n]).card : ℤ) - k)| < 1 := by exact_mod_cast hc'
    rw [abs_lt] at h2; omega
  have hq : (((words t).filter fun w => w ≡ v [ZMOD n]).card : ℚ) = k := by exact_mod_cast this
  rw [chance_eq, words_card, hq, div_eq_div_iff hMq hnq, hkq]; ring

/-- **C162: elements of random tensors are independent.** The chance of a whole tensor is the product of the chances of its elements. -/
theorem C162_randint_independent {ι : Type} [Fintype ι] [DecidableEq ι] (t : IntType) (n : ℤ) (hn : 1 ≤ n) (vals : ι → ℤ) :
    chance (draws (words t)) (fun raw : ι → ℤ => randint n raw = .ok vals) =
      ∏ i, chance (words t) fun w => randint n (fun _ : Unit => w) = .ok fun _ => vals i := by
  rw [← chance_all]
  apply chance_congr
  intro raw _
  have : n ≠ 0 := by omega
  simp only [randint, this, if_false, Except.ok.injEq]
  constructor
  · intro h i; funext _; exact congrFun h i
  · intro h; funext i; exact congrFun (h i) ()

example : (1 : ℤ) ≤ 7 ∧ (0 : ℤ) ≤ 3 ∧ (3 : ℤ) < 7 := by decide

/-- **The chances of random integers are not equal in a small dtype**: with `uint8` and `n = 200` the value 0 is twice as likely as the value 199. -/
theorem C162_violated_randint :
    chance (draws (words uint8)) (fun raw : Unit → ℤ => ∃ out, randint 200 raw = .ok out ∧ out () = 0) = 2 / 256 ∧
    chance (draws (words uint8)) (fun raw : Unit → ℤ => ∃ out, randint 200 raw = .ok out ∧ out () = 199) = 1 / 256 := by
  have e : ∀ v : ℤ, chance (draws (words uint8)) (fun raw : Unit → ℤ => ∃ out, randint 200 raw = .ok out ∧ out () = v) =
      chance (words uint8) fun w => Int.fmod w 200 = v := by
    intro v
    rw [← chance_one (words_nonempty uint8) ()]
    apply chance_congr
    intro raw _
    simp [randint]
  constructor
  · rw [e, chance_eq, show ((words uint8).filter fun w => Int.fmod w 200 = 0).card = 2 by decide +kernel,
      show (words uint8).card = 256 by decide +kernel]
    norm_num
  · rw [e, chance_eq, show ((words uint8).filter fun w => Int.fmod w 200 = 199).card = 1 by decide +kernel,
      show (words uint8).card = 256 by decide +kernel]
    norm_num

/-- Subtracting the lower bound moves the interval of words by a constant, except that a part of it may wrap around. -/
theorem wrap_two_pieces {t : IntType} (ht : 0 < t.bits) {lb : ℤ} (hlb : InType t lb) :
    ∃ c k1 k2 : ℤ, 0 ≤ c ∧ c ≤ t.max + 1 ∧ (∀ x, 0 ≤ x → x < c → t.wrap (x - lb) = x - lb + k1) ∧
      ∀ x, c ≤ x → x < t.max + 1 → t.wrap (x - lb) = x - lb + k2 := by
  obtain ⟨s, b⟩ := t
  obtain ⟨b, rfl⟩ : ∃ c, b = c + 1 := ⟨b - 1, by simp at ht; omega⟩
  have hmax := max_nonneg ⟨s, b + 1⟩
  obtain ⟨h1, h2⟩ := hlb
  have hpos : (0 : ℤ) < 2 ^ b := by positivity
  cases s with
  | true =>
    by_cases h0 : 0 ≤ lb
    · refine ⟨0, 0, 0, le_rfl, by omega, fun x hx hx' => by omega, fun x hx hx' => ?_⟩
      rw [wrap_of_inType _ ht ⟨by have := h2; simp only [IntType.min, IntType.max, if_true, Nat.add_sub_cancel] at *; omega, by omega⟩]; ring
    · refine ⟨IntType.max ⟨true, b + 1⟩ + 1 + lb, 0, -(2 ^ b * 2), ?_, by omega, fun x hx hx' => ?_, fun x hx hx' => ?_⟩
      · simp only [IntType.min, IntType.max, if_true, Nat.add_sub_cancel] at *; omega
      · rw [wrap_of_inType _ ht ⟨by have := min_le_zero ⟨true, b + 1⟩; omega, by omega⟩]; ring
      · have e : IntType.wrap ⟨true, b + 1⟩ (x - lb) = IntType.wrap ⟨true, b + 1⟩ (x - lb + -(2 ^ b * 2)) := by
          simp only [IntType.wrap, if_true]
          have : (x - lb + -(2 ^ b * 2) : ℤ) = x - lb + (((2 ^ (b + 1) : ℕ)) : ℤ) * (-1) := by push_cast; ring
          rw [this, Int.add_mul_bmod_self_left]
        rw [e, wrap_of_inType _ ht]
        simp only [InType, IntType.min, IntType.max, if_true, Nat.add_sub_cancel] at *
        omega
  | false =>
    refine ⟨lb, 2 ^ b * 2, 0, ?_, by omega, fun x hx hx' => ?_, fun x hx hx' => ?_⟩
    · simpa [IntType.min] using h1
    · have e : IntType.wrap ⟨false, b + 1⟩ (x - lb) = IntType.wrap ⟨false, b + 1⟩ (x - lb + (2 ^ b * 2)) := by
        simp only [IntType.wrap, Bool.false_eq_true, if_false]
        have : (x - lb + (2 ^ b * 2) : ℤ) = x - lb + 2 ^ (b + 1) := by ring
        rw [this, Int.add_emod_right]
      rw [e, wrap_of_inType _ ht]
      simp only [InType, IntType.min, IntType.max, Bool.false_eq_true, if_false] at *
      rw [pow_succ] at *
      omega
    · rw [wrap_of_inType _ ht ⟨by have := min_le_zero ⟨false, b + 1⟩; omega, by
        simp only [IntType.min, Bool.false_eq_true, if_false] at h1; omega⟩]; ring

/-- **C162: uniform integers.** `make_uniform` with an integer dtype and bounds whose range fits: for each element, every value between the bounds appears with a
chance which differs from its fair share by less than two words. -/
theorem C162_uniform_int {k : ℕ} (t : IntType) (lb ub : Fin k → ℤ) (hf : ∀ i, Fits t (lb i) (ub i)) (i : Fin k) (v : ℤ) (h0 : lb i ≤ v) (h1 : v ≤ ub i) :
    |chance (draws (words t)) (fun raw : Fin k → ℤ => ∃ out, uniformInt t (some lb) (some ub) raw = .ok out ∧ out i = v) - 1 / ((ub i - lb i + 1 : ℤ) : ℚ)|
      < 2 / ((t.max : ℚ) + 1) := by
  have hle := (hf i).le
  have hd : 0 < ub i - lb i + 1 := by omega
  have hne : ¬ ∃ i, diff t (lb i) (ub i) = 0 := by
    rintro ⟨j, hj⟩
    rw [diff_eq (hf j)] at hj
    have := (hf j).le; omega
  have e : chance (draws (words t)) (fun raw : Fin k → ℤ => ∃ out, uniformInt t (some lb) (some ub) raw = .ok out ∧ out i = v) =
      chance (words t) fun w => t.wrap (w - lb i) ≡ v - lb i [ZMOD ub i - lb i + 1] := by
    rw [← chance_one (words_nonempty t) i]
    apply chance_congr
    intro raw _
    rw [← fmod_iff hd (by omega) (by omega)]
    simp only [uniformInt, hne, if_false, Except.ok.injEq, exists_eq_left']
    rw [(scale_eq (hf i) (raw i)).1]
    constructor <;> intro h <;> omega
  rw [e]
  apply chance_close hd
  obtain ⟨c, k1, k2, hc0, hcM, hw1, hw2⟩ := wrap_two_pieces (hf i).bits (hf i).lbIn
  have hsplit : ((words t).filter fun w => t.wrap (w - lb i) ≡ v - lb i [ZMOD ub i - lb i + 1]).card =
      ((Finset.Ico 0 c).filter fun w => w ≡ v - k1 [ZMOD ub i - lb i + 1]).card +
      ((Finset.Ico c (t.max + 1)).filter fun w => w ≡ v - k2 [ZMOD ub i - lb i + 1]).card := by
    rw [← Finset.card_union_of_disjoint]
    · congr 1
      ext w
      simp only [words_eq, mem_filter, mem_union, mem_Ico]
      have key : ∀ k' : ℤ, (w - lb i + k' ≡ v - lb i [ZMOD ub i - lb i + 1] ↔ w ≡ v - k' [ZMOD ub i - lb i + 1]) := by
        intro k'
        rw [Int.modEq_iff_dvd, Int.modEq_iff_dvd, show v - lb i - (w - lb i + k') = v - k' - w by ring]
      rcases lt_or_ge w c with hw | hw
      · constructor
        · rintro ⟨⟨ha, hb⟩, hm⟩
          rw [hw1 w ha hw, key] at hm
          exact Or.inl ⟨⟨ha, hw⟩, hm⟩
        · rintro (⟨⟨ha, hb⟩, hm⟩ | ⟨⟨ha, hb⟩, hm⟩)
          · refine ⟨⟨ha, by omega⟩, ?_⟩
            rw [hw1 w ha hw, key]; exact hm
          · omega
      · constructor
        · rintro ⟨⟨ha, hb⟩, hm⟩
          rw [hw2 w hw hb, key] at hm
          exact Or.inr ⟨⟨hw, hb⟩, hm⟩
        · rintro (⟨⟨ha, hb⟩, hm⟩ | ⟨⟨ha, hb⟩, hm⟩)
          · omega
          · refine ⟨⟨by omega, hb⟩, ?_⟩
            rw [hw2 w hw hb, key]; exact hm
    · rw [Finset.disjoint_left]
      intro w h1 h2
      simp only [mem_filter, mem_Ico] at h1 h2
      omega
  have c1 := count_residue 0 c hc0 (ub i - lb i + 1) (v - k1) hd
  have c2 := count_residue c (t.max + 1) hcM (ub i - lb i + 1) (v - k2) hd
  rw [hsplit]
  rw [abs_lt] at c1 c2 ⊢
  have e2 : ((t.max : ℚ) + 1) / ((ub i - lb i + 1 : ℤ) : ℚ) = ((c : ℚ) - (0 : ℤ)) / ((ub i - lb i + 1 : ℤ) : ℚ) +
      (((t.max + 1 : ℤ) : ℚ) - c) / ((ub i - lb i + 1 : ℤ) : ℚ) := by
    push_cast; ring
  rw [e2]
  push_cast at c1 c2 ⊢
  constructor <;> linarith [c1.1, c1.2, c2.1, c2.2]

/-- An `int8` tensor with bounds -3 and 5. -/
example : ∀ _i : Fin 2, Fits int8 (-3) 5 := fun _ =>
  ⟨by decide, ⟨by decide, by decide⟩, ⟨by decide, by decide⟩, by decide, by decide⟩

/-- **C162: random bits.** Without bounds, an integer `make_uniform` gives 0 and 1 with chance one half each. -/
theorem C162_uniform_bit {k : ℕ} (t : IntType) (ht : 2 ≤ t.bits) (i : Fin k) (v : ℤ) (hv : v = 0 ∨ v = 1) :
    chance (draws (words t)) (fun raw : Fin k → ℤ => ∃ out, uniformInt t none none raw = .ok out ∧ out i = v) = 1 / 2 := by
  have h := (C162_randint t 2 v (by omega) (by omega) (by omega) i).2 (by
    obtain ⟨s, b⟩ := t
    obtain ⟨b, rfl⟩ : ∃ c, b = c + 2 := ⟨b - 2, by simp at ht; omega⟩
    cases s
    · simp only [IntType.max, Bool.false_eq_true, if_false]; exact ⟨2 ^ (b + 1), by ring⟩
    · simp only [IntType.max, if_true]; exact ⟨2 ^ b, by rw [show b + 2 - 1 = b + 1 by omega]; ring⟩)
  simp only [Int.cast_ofNat] at h
  rw [← h]
  apply chance_congr
  intro raw _
  simp [uniformInt, randint]

example : 2 ≤ int64.bits := by decide

/-! ### Mutation -/

theorem grid_card (g : Nat) : (grid g).card = 2 ^ g := by
  unfold grid
  rw [Finset.card_image_of_injective, Finset.card_range]
  intro a b h
  have h2 : (2 ^ g : ℚ) ≠ 0 := by positivity
  have := (div_left_inj' h2).mp h
  exact_mod_cast this

theorem grid_nonempty (g : Nat) : (grid g).Nonempty := Finset.card_pos.mp (by rw [grid_card]; positivity)

theorem grid_filter (g : Nat) (P : ℚ → Prop) [DecidablePred P] :
    ((grid g).filter P).card = ((Finset.range (2 ^ g)).filter fun k : ℕ => P ((k : ℚ) / 2 ^ g)).card := by
  unfold grid
  rw [Finset.filter_image, Finset.card_image_of_injective]
  intro a b h
  have h2 : (2 ^ g : ℚ) ≠ 0 := by positivity
  have := (div_left_inj' h2).mp h
  exact_mod_cast this

/-- A draw is at most `p`. -/
theorem grid_le (g : Nat) {p : ℚ} (h0 : 0 ≤ p) : chance (grid g) (fun u => u ≤ p) = min 1 (((⌊p * 2 ^ g⌋₊ : ℚ) + 1) / 2 ^ g) := by
  have h2 : (0 : ℚ) < 2 ^ g := by positivity
  have hc : ((Finset.range (2 ^ g)).filter fun k : ℕ => (k : ℚ) / 2 ^ g ≤ p).card = min (2 ^ g) (⌊p * 2 ^ g⌋₊ + 1) := by
    have : ((Finset.range (2 ^ g)).filter fun k : ℕ => (k : ℚ) / 2 ^ g ≤ p) = Finset.range (min (2 ^ g) (⌊p * 2 ^ g⌋₊ + 1)) := by
      ext k
      simp only [mem_filter, mem_range, lt_min_iff, Nat.lt_add_one_iff]
      rw [div_le_iff₀ h2, Nat.le_floor_iff (by positivity)]
    rw [this, Finset.card_range]
  rw [chance_eq, grid_filter, hc, grid_card]
  push_cast
  rw [← min_div_div_right h2.le, div_self h2.ne']

/-- A draw is below `p`. -/
theorem grid_lt (g : Nat) {p : ℚ} (h0 : 0 ≤ p) (h1 : p ≤ 1) : chance (grid g) (fun u => u < p) = (⌈p * 2 ^ g⌉₊ : ℚ) / 2 ^ g := by
  have h2 : (0 : ℚ) < 2 ^ g := by positivity
  have hc : ((Finset.range (2 ^ g)).filter fun k : ℕ => (k : ℚ) / 2 ^ g < p).card = ⌈p * 2 ^ g⌉₊ := by
    have : ((Finset.range (2 ^ g)).filter fun k : ℕ => (k : ℚ) / 2 ^ g < p) = Finset.range ⌈p * 2 ^ g⌉₊ := by
      ext k
      simp only [mem_filter, mem_range]
      rw [div_lt_iff₀ h2, ← Nat.lt_ceil]
      refine ⟨fun h => h.2, fun h => ⟨?_, h⟩⟩
      have : ⌈p * 2 ^ g⌉₊ ≤ 2 ^ g := by
        rw [Nat.ceil_le]; push_cast; nlinarith
      omega
    rw [this, Finset.card_range]
  rw [chance_eq, grid_filter, hc, grid_card]
  push_cast; rfl

/-- **C162: Gaussian mutation.** Without bounds, if every Gaussian step is nonzero: the genes are changed independently of each other, each with the same chance, which
is the mutation probability rounded up to the next step of the uniform generator (more than it, by at most one such step; 1 if the probability is 1). -/
theorem C162_gaussian_mutation {n l : Nat} (g : Nat) (prob stdev : ℚ) (h0 : 0 ≤ prob) (h1 : prob ≤ 1) (step data : Fin n → Fin l → ℚ)
    (hs : ∀ i j, stdev * step i j ≠ 0) :
    ∃ q : ℚ, prob ≤ q ∧ q ≤ 1 ∧ q ≤ prob + 1 / 2 ^ g ∧ (prob < 1 → prob < q) ∧
      ∀ S : Finset (Fin n × Fin l),
        chance (draws (grid g)) (fun u : Fin n × Fin l → ℚ => ∀ i j,
          Operators.gaussianMutation (fun _ => none) (fun _ => none) prob stdev (fun i j => u (i, j)) step data i j ≠ data i j ↔ (i, j) ∈ S) =
        q ^ S.card * (1 - q) ^ (n * l - S.card) := by
  have h2 : (0 : ℚ) < 2 ^ g := by positivity
  have hfl := Nat.floor_le (show (0 : ℚ) ≤ prob * 2 ^ g by positivity)
  have hfl' := Nat.lt_floor_add_one (prob * 2 ^ g)
  refine ⟨chance (grid g) (fun u => u ≤ prob), ?_, ?_, ?_, ?_, ?_⟩
  · rw [grid_le g h0, le_min_iff, le_div_iff₀ h2]
    exact ⟨h1, hfl'.le⟩
  · rw [grid_le g h0]; exact min_le_left _ _
  · rw [grid_le g h0]
    refine (min_le_right _ _).trans ?_
    rw [add_div]
    have : (⌊prob * 2 ^ g⌋₊ : ℚ) / 2 ^ g ≤ prob := by rw [div_le_iff₀ h2]; exact hfl
    linarith
  · intro hlt
    rw [grid_le g h0, lt_min_iff, lt_div_iff₀ h2]
    exact ⟨hlt, hfl'⟩
  · intro S
    have e : chance (draws (grid g)) (fun u : Fin n × Fin l → ℚ => ∀ i j,
          Operators.gaussianMutation (fun _ => none) (fun _ => none) prob stdev (fun i j => u (i, j)) step data i j ≠ data i j ↔ (i, j) ∈ S) =
        chance (draws (grid g)) (fun u : Fin n × Fin l → ℚ => ∀ ij, (u ij ≤ prob ↔ ij ∈ S)) := by
      apply chance_congr
      intro u _
      have hone : ∀ i j, Operators.gaussianMutation (fun _ => none) (fun _ => none) prob stdev (fun i j => u (i, j)) step data i j ≠ data i j ↔ u (i, j) ≤ prob := by
        intro i j
        simp only [Operators.gaussianMutation, Operators.respectBounds]
        by_cases h : u (i, j) ≤ prob
        · simp only [h, if_true, iff_true]
          intro he
          exact hs i j (by linarith)
        · simp [h]
      constructor
      · intro h ij; rw [← hone ij.1 ij.2]; exact h ij.1 ij.2
      · intro h i j; rw [hone]; exact h (i, j)
    have hall := chance_all (ι := Fin n × Fin l) (grid g) fun ij u => (u ≤ prob ↔ ij ∈ S)
    rw [e, hall]
    have hval : ∀ ij : Fin n × Fin l, chance (grid g) (fun u => u ≤ prob ↔ ij ∈ S) =
        if ij ∈ S then chance (grid g) (fun u => u ≤ prob) else 1 - chance (grid g) (fun u => u ≤ prob) := by
      intro ij
      split
      · rename_i h; exact chance_congr fun u _ => by simp [h]
      · rename_i h
        rw [← chance_not (grid_nonempty g)]
        exact chance_congr fun u _ => by simp [h]
    rw [Finset.prod_congr rfl fun ij _ => hval ij, Finset.prod_ite, Finset.prod_const, Finset.prod_const]
    congr 2
    · rw [Finset.filter_mem_eq_inter, Finset.univ_inter]
    · rw [Finset.filter_not, Finset.filter_mem_eq_inter, Finset.univ_inter, ← Finset.compl_eq_univ_sdiff, Finset.card_compl, Fintype.card_prod,
        Fintype.card_fin, Fintype.card_fin]

example : (0 : ℚ) ≤ 1 / 10 ∧ (1 / 10 : ℚ) ≤ 1 ∧ ∀ i j : Fin 2, (1 / 2 : ℚ) * (![![1, -2], ![3, 1 / 7]] i j) ≠ 0 := by decide +kernel

/-- **A mutation probability of zero does not prevent Gaussian mutation**: a gene is mutated when the uniform draw is exactly zero. -/
theorem C162_violated_zero_probability (g : Nat) (stdev step x : ℚ) (hs : stdev * step ≠ 0) :
    0 < chance (draws (grid g)) (fun u : Fin 1 × Fin 1 → ℚ =>
      Operators.gaussianMutation (fun _ => none) (fun _ => none) 0 stdev (fun i j => u (i, j)) (fun _ _ => step) (fun _ _ => x) 0 0 ≠ x) := by
  obtain ⟨q, -, h1, -, h3, h4⟩ := C162_gaussian_mutation (n := 1) (l := 1) g 0 stdev le_rfl (by norm_num) (fun _ _ => step) (fun _ _ => x) (fun _ _ => hs)
  have h5 := h4 {(0, 0)}
  simp only [Finset.card_singleton, pow_one, Nat.mul_one, Nat.sub_self, pow_zero, mul_one] at h5
  have h6 := h3 (by norm_num)
  rw [← h5] at h6
  refine lt_of_lt_of_eq h6 (chance_congr fun u _ => ?_)
  constructor
  · intro h; exact (h 0 0).mpr (by simp)
  · intro h i j
    have hi : i = 0 := Subsingleton.elim _ _
    have hj : j = 0 := Subsingleton.elim _ _
    subst hi; subst hj
    simpa using h

/-- **C162: polynomial mutation.** A gene is selected with the mutation probability rounded up to a step of the generator: never for probability 0, always for
probability 1 or without a probability. -/
theorem C162_polynomial_mutation {ι : Type} [Fintype ι] [DecidableEq ι] (g : Nat) (prob : ℚ) (h0 : 0 ≤ prob) (h1 : prob ≤ 1) (i : ι) :
    let q := chance (draws (grid g)) (fun u : ι → ℚ => polyMask (some prob) (u i) = true)
    prob ≤ q ∧ q < prob + 1 / 2 ^ g ∧ (prob = 0 → q = 0) ∧ (prob = 1 → q = 1) ∧
      chance (draws (grid g)) (fun u : ι → ℚ => polyMask none (u i) = true) = 1 := by
  intro q
  have h2 : (0 : ℚ) < 2 ^ g := by positivity
  have hq : q = (⌈prob * 2 ^ g⌉₊ : ℚ) / 2 ^ g := by
    rw [← grid_lt g h0 h1, ← chance_one (grid_nonempty g) i]
    exact chance_congr fun u _ => by simp [polyMask]
  refine ⟨?_, ?_, ?_, ?_, ?_⟩
  · rw [hq, le_div_iff₀ h2]; exact Nat.le_ceil _
  · have := Nat.ceil_lt_add_one (show (0 : ℚ) ≤ prob * 2 ^ g by positivity)
    rw [hq, div_lt_iff₀ h2, add_mul, one_div, inv_mul_cancel₀ h2.ne']; exact this
  · rintro rfl; rw [hq]; simp
  · rintro rfl; rw [hq, one_mul, show (2 ^ g : ℚ) = ((2 ^ g : ℕ) : ℚ) by push_cast; rfl, Nat.ceil_natCast, div_self]
    exact_mod_cast h2.ne'
  · rw [chance_one (grid_nonempty g) i fun u => polyMask none u = true, chance_eq]
    simp only [polyMask, Finset.filter_true, div_self (show ((grid g).card : ℚ) ≠ 0 by exact_mod_cast (grid_nonempty g).card_pos.ne')]

example : (0 : ℚ) ≤ 1 / 3 ∧ (1 / 3 : ℚ) ≤ 1 := by norm_num

theorem chance_mono {α : Type} {s : Finset α} {P Q : α → Prop} (h : ∀ x ∈ s, P x → Q x) : chance s P ≤ chance s Q := by
  classical
  rw [chance_eq, chance_eq]
  apply div_le_div_of_nonneg_right _ (Nat.cast_nonneg _)
  exact_mod_cast Finset.card_le_card fun x hx => by
    rw [mem_filter] at hx ⊢
    exact ⟨hx.1, h x hx.1 hx.2⟩

/-- **C162: who takes part in a Cosyne permutation.** With `permute_all` everyone does. Otherwise the worst solution always does, the best one only when the uniform
draw is exactly zero, and a better solution never has a larger chance than a worse one. -/
theorem C162_cosyne_mask {ι : Type} [Fintype ι] [DecidableEq ι] (g : Nat) (root : ℚ → ℚ) (hm : ∀ a b, 0 ≤ a → a ≤ b → root a ≤ root b) (hr0 : root 0 = 0)
    (hr1 : root 1 = 1) (i : ι) :
    (∀ rank, chance (draws (grid g)) (fun u : ι → ℚ => cosyneMask true root rank (u i) = true) = 1) ∧
    chance (draws (grid g)) (fun u : ι → ℚ => cosyneMask false root (-1 / 2) (u i) = true) = 1 ∧
    chance (draws (grid g)) (fun u : ι → ℚ => cosyneMask false root (1 / 2) (u i) = true) = 1 / 2 ^ g ∧
    ∀ a b, -1 / 2 ≤ a → a ≤ b → chance (draws (grid g)) (fun u : ι → ℚ => cosyneMask false root b (u i) = true) ≤
      chance (draws (grid g)) (fun u : ι → ℚ => cosyneMask false root a (u i) = true) := by
  have h2 : (1 : ℚ) ≤ 2 ^ g := one_le_pow₀ (by norm_num)
  have e : ∀ b rank, chance (draws (grid g)) (fun u : ι → ℚ => cosyneMask b root rank (u i) = true) =
      chance (grid g) fun u => u ≤ if b then 1 else 1 - root (rank + 1 / 2) := by
    intro b rank
    rw [← chance_one (grid_nonempty g) i]
    exact chance_congr fun u _ => by simp [cosyneMask]
  have e1 : chance (grid g) (fun u => u ≤ 1) = 1 := by
    rw [grid_le g (by norm_num), one_mul, show (2 ^ g : ℚ) = ((2 ^ g : ℕ) : ℚ) by push_cast; rfl, Nat.floor_natCast]
    apply min_eq_left
    have : (0 : ℚ) < ((2 ^ g : ℕ) : ℚ) := by positivity
    rw [le_div_iff₀ this]; linarith
  refine ⟨fun rank => ?_, ?_, ?_, fun a b ha hab => ?_⟩
  · rw [e]; exact e1
  · rw [e]
    rw [show (-1 / 2 : ℚ) + 1 / 2 = 0 by norm_num, hr0]
    simpa using e1
  · rw [e]
    rw [show (1 / 2 : ℚ) + 1 / 2 = 1 by norm_num, hr1]
    simp only [Bool.false_eq_true, if_false, sub_self]
    rw [grid_le g le_rfl]
    simp only [zero_mul, Nat.floor_zero, Nat.cast_zero, zero_add]
    apply min_eq_right
    rw [div_le_one (by positivity)]; exact h2
  · rw [e, e]
    apply chance_mono
    intro u _ hu
    simp only [Bool.false_eq_true, if_false] at hu ⊢
    have := hm (a + 1 / 2) (b + 1 / 2) (by linarith) (by linarith)
    linarith

example : (∀ a b : ℚ, 0 ≤ a → a ≤ b → id a ≤ id b) ∧ id (0 : ℚ) = 0 ∧ id (1 : ℚ) = 1 := ⟨fun _ _ _ h => h, rfl, rfl⟩

/-! ### Cross-over -/

/-- **C162: one-point cross-over.** The gene at position `j` of the first child comes from the first parent with chance `j / (l - 1)`: never for the first gene, always
for the last one, so both parents always contribute. -/
theorem C162_one_point {V : Type} {l : Nat} (hl : 2 ≤ l) (p1 p2 : Fin l → V) (j : Fin l) (hne : p1 j ≠ p2 j) :
    chance (draws (Finset.range (Operators.drawRange 1 l))) (fun d : Fin 1 → Nat =>
      ∃ c1 c2, Operators.multiPoint 1 [(p1, p2, List.ofFn d)] = [c1, c2] ∧ c1 j = p1 j ∧ c2 j = p2 j) = (j.val : ℚ) / (l - 1) := by
  have hne' : (Finset.range (Operators.drawRange 1 l)).Nonempty := ⟨0, by simp [Operators.drawRange]; omega⟩
  have hd : Operators.drawRange 1 l = l - 1 := rfl
  have e : chance (draws (Finset.range (Operators.drawRange 1 l))) (fun d : Fin 1 → Nat =>
      ∃ c1 c2, Operators.multiPoint 1 [(p1, p2, List.ofFn d)] = [c1, c2] ∧ c1 j = p1 j ∧ c2 j = p2 j) =
      chance (Finset.range (Operators.drawRange 1 l)) fun d => d < j.val := by
    rw [← chance_one hne' (0 : Fin 1)]
    apply chance_congr
    intro d _
    simp only [Operators.multiPoint, Operators.crossMask, List.map_cons, List.map_nil, List.cons_append, List.nil_append, if_true]
    constructor
    · rintro ⟨c1, c2, h, h1, -⟩
      simp only [List.cons.injEq, and_true] at h
      rw [← h.1] at h1
      by_contra hlt
      have : ¬ (j.val ≥ (List.ofFn d).headD 0 + 1) := by simp; omega
      simp only [this, decide_false, Bool.false_eq_true, if_false] at h1
      exact hne h1.symm
    · intro hlt
      have : j.val ≥ (List.ofFn d).headD 0 + 1 := by simp; omega
      exact ⟨_, _, rfl, by simp only [this, decide_true, if_true], by simp only [this, decide_true, if_true]⟩
  rw [e, chance_eq, Finset.card_range, hd]
  have : ((Finset.range (l - 1)).filter fun d => d < j.val) = Finset.range j.val := by
    ext d; simp only [mem_filter, mem_range]; have := j.isLt; omega
  rw [this, Finset.card_range, Nat.cast_sub (by omega)]; simp

example : (fun _ => 0 : Fin 3 → ℕ) 1 ≠ (fun _ => 1 : Fin 3 → ℕ) 1 := by decide

theorem foldl_xor (j : Nat) (ds : List Nat) (m : Bool) :
    ds.foldl (fun m p => xor m (decide (j ≥ p))) m = xor m (ds.foldl (fun m p => xor m (decide (j ≥ p))) false) := by
  induction ds generalizing m with
  | nil => simp
  | cons d ds ih =>
    rw [List.foldl_cons, List.foldl_cons, ih, ih (xor false _)]
    cases m <;> simp

/-- The number of ways of drawing `k` cut points for which an odd number of them is at most `j`. -/
theorem count_odd (N j : Nat) (hj : j < N) (k : Nat) :
    2 * ((((draws (Finset.range N)).filter fun d : Fin k → Nat => (List.ofFn d).foldl (fun m p => xor m (decide (j ≥ p))) false = true).card : ℕ) : ℤ) =
      (N : ℤ) ^ k - ((N : ℤ) - 2 * (j + 1)) ^ k := by
  induction k with
  | zero => simp
  | succ k ih =>
    have hcount : ∀ k, (draws (Finset.range N) : Finset (Fin k → Nat)).card = N ^ k := by
      intro k; simp [draws]
    have hsplit : (((draws (Finset.range N)).filter fun d : Fin (k + 1) → Nat => (List.ofFn d).foldl (fun m p => xor m (decide (j ≥ p))) false = true).card : ℤ) =
        (j + 1) * ((N : ℤ) ^ k - ((draws (Finset.range N)).filter fun d : Fin k → Nat => (List.ofFn d).foldl (fun m p => xor m (decide (j ≥ p))) false = true).card) +
        (N - (j + 1)) * ((draws (Finset.range N)).filter fun d : Fin k → Nat => (List.ofFn d).foldl (fun m p => xor m (decide (j ≥ p))) false = true).card := by
      have hb : ((draws (Finset.range N)).filter fun d : Fin (k + 1) → Nat => (List.ofFn d).foldl (fun m p => xor m (decide (j ≥ p))) false = true).card =
          (((Finset.range (j + 1)) ×ˢ ((draws (Finset.range N)).filter fun d : Fin k → Nat => ¬ (List.ofFn d).foldl (fun m p => xor m (decide (j ≥ p))) false = true)) ∪
          ((Finset.Ico (j + 1) N) ×ˢ ((draws (Finset.range N)).filter fun d : Fin k → Nat => (List.ofFn d).foldl (fun m p => xor m (decide (j ≥ p))) false = true))).card := by
        refine Finset.card_bij' (fun d _ => (d 0, fun i => d i.succ)) (fun q _ => Fin.cons q.1 q.2) ?_ ?_ ?_ ?_
        · intro d hd
          simp only [mem_filter, draws, Fintype.mem_piFinset, mem_range, List.ofFn_succ, List.foldl_cons] at hd
          rw [foldl_xor] at hd
          simp only [mem_union, mem_product, mem_range, mem_Ico, mem_filter, draws, Fintype.mem_piFinset]
          by_cases h : d 0 ≤ j
          · left
            refine ⟨by omega, fun i => hd.1 _, ?_⟩
            have := hd.2
            simp only [ge_iff_le, h, decide_true] at this
            simpa using this
          · right
            refine ⟨⟨by omega, hd.1 0⟩, fun i => hd.1 _, ?_⟩
            have := hd.2
            simp only [ge_iff_le, h, decide_false] at this
            simpa using this
        · rintro ⟨a, d⟩ hd
          simp only [mem_union, mem_product, mem_range, mem_Ico, mem_filter, draws, Fintype.mem_piFinset] at hd
          simp only [mem_filter, draws, Fintype.mem_piFinset, mem_range, List.ofFn_succ, List.foldl_cons, Fin.cons_zero, Fin.cons_succ]
          rw [foldl_xor]
          rcases hd with ⟨h1, h2, h3⟩ | ⟨h1, h2, h3⟩
          · refine ⟨fun i => ?_, ?_⟩
            · refine Fin.cases ?_ (fun i => ?_) i
              · simp; omega
              · simpa using h2 i
            · have : j ≥ a := by omega
              simp only [this, decide_true]
              simpa using h3
          · refine ⟨fun i => ?_, ?_⟩
            · refine Fin.cases ?_ (fun i => ?_) i
              · simp; omega
              · simpa using h2 i
            · have : ¬ j ≥ a := by omega
              simp only [this, decide_false]
              simpa using h3
        · intro d _
          funext i
          refine Fin.cases ?_ (fun i => ?_) i <;> simp
        · rintro ⟨a, d⟩ _
          simp
      rw [hb, Finset.card_union_of_disjoint, Finset.card_product, Finset.card_product, Finset.card_range, Nat.card_Ico]
      · have hn := Finset.card_filter_add_card_filter_not (s := (draws (Finset.range N) : Finset (Fin k → Nat)))
          fun d => (List.ofFn d).foldl (fun m p => xor m (decide (j ≥ p))) false = true
        rw [hcount] at hn
        have hn' : (((draws (Finset.range N)).filter fun d : Fin k → Nat => ¬ (List.ofFn d).foldl (fun m p => xor m (decide (j ≥ p))) false = true).card : ℤ) =
            (N : ℤ) ^ k - ((draws (Finset.range N)).filter fun d : Fin k → Nat => (List.ofFn d).foldl (fun m p => xor m (decide (j ≥ p))) false = true).card := by
          rw [eq_sub_iff_add_eq, add_comm]; exact_mod_cast hn
        push_cast [Nat.cast_sub (show j + 1 ≤ N by omega)]
        rw [hn']
      · rw [Finset.disjoint_left]
        rintro ⟨a, d⟩ h1 h2
        simp only [mem_product, mem_range, mem_Ico] at h1 h2
        omega
    rw [hsplit, pow_succ, pow_succ]
    linear_combination ((N : ℤ) - 2 * (j + 1)) * ih

/-- **C162: multi-point cross-over.** With `k ≥ 2` cut points the gene at position `j` of the first child comes from the first parent with chance
`(1 - (1 - 2 a)^k) / 2`, where `a = (j + 1) / (l + 1)` is the chance that one cut point is not behind the gene. -/
theorem C162_multi_point {V : Type} {l k : Nat} (hk : 2 ≤ k) (p1 p2 : Fin l → V) (j : Fin l) (hne : p1 j ≠ p2 j) :
    chance (draws (Finset.range (Operators.drawRange k l))) (fun d : Fin k → Nat =>
      ∃ c1 c2, Operators.multiPoint k [(p1, p2, List.ofFn d)] = [c1, c2] ∧ c1 j = p1 j ∧ c2 j = p2 j) =
    (1 - (1 - 2 * (((j.val : ℚ) + 1) / (l + 1))) ^ k) / 2 := by
  have hd : Operators.drawRange k l = l + 1 := by unfold Operators.drawRange; rw [if_neg (by omega)]
  have hk1 : ¬ k = 1 := by omega
  have e : chance (draws (Finset.range (Operators.drawRange k l))) (fun d : Fin k → Nat =>
      ∃ c1 c2, Operators.multiPoint k [(p1, p2, List.ofFn d)] = [c1, c2] ∧ c1 j = p1 j ∧ c2 j = p2 j) =
      chance (draws (Finset.range (l + 1))) fun d : Fin k → Nat => (List.ofFn d).foldl (fun m p => xor m (decide (j.val ≥ p))) false = true := by
    rw [hd]
    apply chance_congr
    intro d _
    simp only [Operators.multiPoint, Operators.crossMask, List.map_cons, List.map_nil, List.cons_append, List.nil_append, hk1, if_false]
    constructor
    · rintro ⟨c1, c2, h, h1, -⟩
      simp only [List.cons.injEq, and_true] at h
      rw [← h.1] at h1
      by_contra hlt
      simp only [hlt] at h1
      exact hne (by simpa using h1.symm)
    · intro h
      exact ⟨_, _, rfl, by simp only [h, if_true], by simp only [h, if_true]⟩
  have hc := count_odd (l + 1) j.val (by have := j.isLt; omega) k
  rw [e, chance_eq]
  have hcard : (draws (Finset.range (l + 1)) : Finset (Fin k → Nat)).card = (l + 1) ^ k := by simp [draws]
  rw [hcard]
  have hl : ((l : ℚ) + 1) ≠ 0 := by positivity
  have hq : 2 * ((((draws (Finset.range (l + 1))).filter fun d : Fin k → Nat => (List.ofFn d).foldl (fun m p => xor m (decide (j.val ≥ p))) false = true).card : ℕ) : ℚ) =
      ((l : ℚ) + 1) ^ k - (((l : ℚ) + 1) - 2 * (j.val + 1)) ^ k := by exact_mod_cast hc
  have e3 : (1 - 2 * (((j.val : ℚ) + 1) / (l + 1))) = (((l : ℚ) + 1) - 2 * (j.val + 1)) / (l + 1) := by field_simp
  rw [e3, div_pow]
  push_cast
  field_simp
  linarith

example : (2 : ℕ) ≤ 3 ∧ (fun _ => 0 : Fin 3 → ℕ) 1 ≠ (fun _ => 1 : Fin 3 → ℕ) 1 := by decide

end EvoTorch.Chances
