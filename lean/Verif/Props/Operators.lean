import Verif.Model.Operators
import Verif.Props.Ranking
import Mathlib.Algebra.Order.Floor.Ring
import Mathlib.Tactic.Positivity
/-!
C26 (bounds), C27 (multi-point cross-over), C28 (number of children), C29 (tournaments), C30 (SBX mean), C31 (Cosyne permutation),
C32 (cut and splice).
-/
namespace EvoTorch.Operators
variable {K V : Type} {n l : Nat}

section C26

/-- Specification: `x` is within the (optional) bounds. -/
def Within [LE K] (lb ub : Option K) (x : K) : Prop := (∀ a, lb = some a → a ≤ x) ∧ (∀ b, ub = some b → x ≤ b)

theorem respectBounds_within [LinearOrder K] (lb ub : Option K) (h : ∀ a b, lb = some a → ub = some b → a ≤ b) (x : K) :
    Within lb ub (respectBounds lb ub x) := by
  cases lb <;> cases ub <;> simp [Within, respectBounds]
  exact h _ _ rfl rfl

/-- Clipping changes nothing that is within the bounds. -/
theorem respectBounds_id [LinearOrder K] (lb ub : Option K) (x : K) (h : Within lb ub x) : respectBounds lb ub x = x := by
  cases lb <;> cases ub <;> simp [Within, respectBounds] at * <;> simp [*]

/-- **C26 (Gaussian mutation).** Every value is within the bounds, whatever the parents, the standard deviation and the draws; genes that
are not selected and already within the bounds are unchanged. -/
theorem C26_gaussian_mutation [LinearOrder K] [Add K] [Mul K] (lb ub : Fin l → Option K)
    (h : ∀ j a b, lb j = some a → ub j = some b → a ≤ b) (prob stdev : K) (u g data : Fin n → Fin l → K) (i : Fin n) (j : Fin l) :
    Within (lb j) (ub j) (gaussianMutation lb ub prob stdev u g data i j) ∧
    (¬ u i j ≤ prob → Within (lb j) (ub j) (data i j) → gaussianMutation lb ub prob stdev u g data i j = data i j) := by
  refine ⟨respectBounds_within _ _ (h j) _, fun hu hw => ?_⟩
  simp only [gaussianMutation, if_neg hu]
  exact respectBounds_id _ _ _ hw

example : gaussianMutation (n := 1) (fun _ : Fin 2 => some (-1 : ℚ)) (fun _ => some 1) (1 / 2) 3 (fun _ j => if j = 0 then 0 else 1) (fun _ _ => 5)
    (fun _ _ => 1 / 3) 0 0 = 1 := by decide +kernel

/-- **C26 (SBX).** Every value of every child is within the bounds. -/
theorem C26_sbx (lb ub : Fin l → Option ℝ) (h : ∀ j a b, lb j = some a → ub j = some b → a ≤ b) (eta : ℝ) (u p1 p2 : Fin n → Fin l → ℝ) :
    ∀ c ∈ sbx lb ub eta u p1 p2, ∀ j, Within (lb j) (ub j) (c j) := by
  intro c hc j
  rcases List.mem_append.mp hc with hc | hc
  · obtain ⟨i, _, rfl⟩ := List.mem_map.mp hc
    exact respectBounds_within _ _ (h j) _
  · obtain ⟨i, _, rfl⟩ := List.mem_map.mp hc
    exact respectBounds_within _ _ (h j) _

theorem rpow_root {w e : ℝ} (hw : 0 ≤ w) (he : 0 < e) : (w ^ e) ^ (1 / e) = w := by
  rw [← Real.rpow_mul hw, mul_one_div_cancel (ne_of_gt he), Real.rpow_one]

/-- With non-degenerate bounds, a parent within them and a draw in [0, 1], the mutated value exists and is within the bounds even before
clipping. -/
theorem polyMutated_within {eta lb ub r x : ℝ} (he : 0 < eta + 1) (hlt : lb < ub) (h1 : lb ≤ x) (h2 : x ≤ ub) (hr0 : 0 ≤ r) (hr1 : r ≤ 1) :
    ∃ y, polyMutated eta lb ub r x = some y ∧ lb ≤ y ∧ y ≤ ub := by
  have hd : 0 < ub - lb := by linarith
  have hd0 : ub - lb ≠ 0 := ne_of_gt hd
  -- a value between w^e and 1 has its e-th root between w and 1
  have key : ∀ w v : ℝ, 0 ≤ w → w ≤ 1 → w ^ (eta + 1) ≤ v → v ≤ 1 → 0 ≤ v ∧ w ≤ v ^ (1 / (eta + 1)) ∧ v ^ (1 / (eta + 1)) ≤ 1 := by
    intro w v hw hw1 hv hv1
    have hv0 : 0 ≤ v := le_trans (Real.rpow_nonneg hw _) hv
    have hpos : 0 < 1 / (eta + 1) := by positivity
    refine ⟨hv0, ?_, Real.rpow_le_one hv0 hv1 hpos.le⟩
    calc w = (w ^ (eta + 1)) ^ (1 / (eta + 1)) := (rpow_root hw he).symm
      _ ≤ v ^ (1 / (eta + 1)) := Real.rpow_le_rpow (Real.rpow_nonneg hw _) hv hpos.le
  have hw1 : (0 : ℝ) ≤ 1 - (x - lb) / (ub - lb) := by
    rw [sub_nonneg, div_le_one hd]; linarith
  have hw1' : 1 - (x - lb) / (ub - lb) ≤ 1 := by
    have : 0 ≤ (x - lb) / (ub - lb) := div_nonneg (by linarith) hd.le
    linarith
  have hw2 : (0 : ℝ) ≤ 1 - (ub - x) / (ub - lb) := by
    rw [sub_nonneg, div_le_one hd]; linarith
  have hw2' : 1 - (ub - x) / (ub - lb) ≤ 1 := by
    have : 0 ≤ (ub - x) / (ub - lb) := div_nonneg (by linarith) hd.le
    linarith
  have e1 : (1 - (x - lb) / (ub - lb)) * (ub - lb) = ub - x := by field_simp; ring
  have e2 : (1 - (ub - x) / (ub - lb)) * (ub - lb) = x - lb := by field_simp; ring
  simp only [polyMutated, nanDiv, if_neg hd0, Option.bind_eq_bind, Option.bind_some]
  by_cases hr : r < 1 / 2
  · rw [if_pos hr]
    have hwe : (1 - (x - lb) / (ub - lb)) ^ (eta + 1) ≤ 1 := Real.rpow_le_one hw1 hw1' he.le
    obtain ⟨hv0, hv1, hv2⟩ := key _ (2 * r + (1 - 2 * r) * (1 - (x - lb) / (ub - lb)) ^ (eta + 1)) hw1 hw1' (by nlinarith) (by nlinarith)
    simp only [nanPow, if_pos hw1, Option.bind_some, if_pos hv0]
    refine ⟨_, rfl, ?_, ?_⟩
    · nlinarith [mul_le_mul_of_nonneg_right hv1 hd.le]
    · nlinarith [mul_le_mul_of_nonneg_right hv2 hd.le]
  · rw [if_neg hr]
    push Not at hr
    have hwe : (1 - (ub - x) / (ub - lb)) ^ (eta + 1) ≤ 1 := Real.rpow_le_one hw2 hw2' he.le
    obtain ⟨hv0, hv1, hv2⟩ := key _ (2 * (1 - r) + 2 * (r - 1 / 2) * (1 - (ub - x) / (ub - lb)) ^ (eta + 1)) hw2 hw2' (by nlinarith) (by nlinarith)
    simp only [nanPow, if_pos hw2, Option.bind_some, if_pos hv0]
    refine ⟨_, rfl, ?_, ?_⟩
    · nlinarith [mul_le_mul_of_nonneg_right hv2 hd.le]
    · nlinarith [mul_le_mul_of_nonneg_right hv1 hd.le]

/-- **C26 (polynomial mutation).** Non-degenerate bounds, parents within them, `eta > -1` and draws in [0, 1]: every value of the result is a
number (not NaN) within the bounds. Missing: degenerate bounds `lb = ub`, see `C26_violated_polynomial`. -/
theorem C26_polynomial_mutation_partial {eta : ℝ} (he : 0 < eta + 1) (lb ub : Fin l → ℝ) (hlt : ∀ j, lb j < ub j)
    (mutate : Fin n → Fin l → Bool) (r data : Fin n → Fin l → ℝ) (hr : ∀ i j, 0 ≤ r i j ∧ r i j ≤ 1)
    (hd : ∀ i j, lb j ≤ data i j ∧ data i j ≤ ub j) (i : Fin n) (j : Fin l) :
    ∃ y, polynomialMutation eta lb ub mutate r data i j = some y ∧ lb j ≤ y ∧ y ≤ ub j := by
  simp only [polynomialMutation]
  have hw := fun y => respectBounds_within (some (lb j)) (some (ub j)) (by rintro a b ⟨⟩ ⟨⟩; exact (hlt j).le) y
  by_cases hm : mutate i j = true
  · rw [if_pos hm]
    obtain ⟨y, hy, _, _⟩ := polyMutated_within he (hlt j) (hd i j).1 (hd i j).2 (hr i j).1 (hr i j).2
    rw [hy]
    exact ⟨_, rfl, (hw y).1 _ rfl, (hw y).2 _ rfl⟩
  · rw [if_neg hm]
    exact ⟨_, rfl, (hw _).1 _ rfl, (hw _).2 _ rfl⟩

/-- **C26 is violated** by polynomial mutation on a gene with `lower_bound = upper_bound`, which the constructor accepts: the gene becomes NaN
whatever the parent and the draw. -/
theorem C26_violated_polynomial (eta b r : ℝ) :
    polynomialMutation (n := 1) (l := 1) eta (fun _ => b) (fun _ => b) (fun _ _ => true) (fun _ _ => r) (fun _ _ => b) 0 0 = none := by
  simp [polynomialMutation, polyMutated, nanDiv]

example : (0 : ℝ) < 20 + 1 ∧ (-1 : ℝ) < 1 ∧ (0 : ℝ) ≤ 3 / 10 ∧ (3 / 10 : ℝ) ≤ 1 := by norm_num

end C26

section C27

/-- Specification: the number of cut points at or before position `j`. -/
def cutsUpTo (cuts : List Nat) (j : Nat) : Nat := (cuts.filter fun p => decide (p ≤ j)).length

theorem foldl_xor (draws : List Nat) (j : Nat) (b : Bool) :
    draws.foldl (fun m p => xor m (decide (j ≥ p))) b = xor b (decide (cutsUpTo draws j % 2 = 1)) := by
  induction draws generalizing b with
  | nil => simp [cutsUpTo]
  | cons p ps ih =>
    rw [List.foldl_cons, ih]
    by_cases h : p ≤ j
    · have : cutsUpTo (p :: ps) j = cutsUpTo ps j + 1 := by simp [cutsUpTo, h]
      rw [this]
      have hp := Nat.mod_two_eq_zero_or_one (cutsUpTo ps j)
      rcases hp with hp | hp
      · have h2 : (cutsUpTo ps j + 1) % 2 = 1 := by omega
        cases b <;> simp [h, hp, h2]
      · have h2 : (cutsUpTo ps j + 1) % 2 = 0 := by omega
        cases b <;> simp [h, hp, h2]
    · have : cutsUpTo (p :: ps) j = cutsUpTo ps j := by simp [cutsUpTo, h]
      rw [this]
      cases b <;> simp [h]

/-- **C27.** For every number of points, every pairing and every draws: there are two children per pairing; at each position one sibling has
the gene of the first parent and the other that of the second (so the pair of values is preserved), and the siblings change over exactly at
the cut points: the first child takes the first parent's gene after an odd number of cuts. -/
theorem C27_multi_point (numPoints : Nat) (pairings : List ((Fin l → V) × (Fin l → V) × List Nat)) :
    (multiPoint numPoints pairings).length = 2 * pairings.length ∧
    ∀ (k : Nat) (p1 p2 : Fin l → V) (draws : List Nat), pairings[k]? = some (p1, p2, draws) →
      ∃ c1 c2, (multiPoint numPoints pairings)[k]? = some c1 ∧ (multiPoint numPoints pairings)[k + pairings.length]? = some c2 ∧
        ∀ j : Fin l, ((c1 j = p1 j ∧ c2 j = p2 j) ∨ (c1 j = p2 j ∧ c2 j = p1 j)) ∧
          (numPoints ≠ 1 → c1 j = if cutsUpTo draws j % 2 = 1 then p1 j else p2 j) := by
  constructor
  · simp [multiPoint]; omega
  · intro k p1 p2 draws hk
    obtain ⟨hlt, _⟩ := List.getElem?_eq_some_iff.mp hk
    refine ⟨fun j => if crossMask numPoints draws j then p1 j else p2 j, fun j => if crossMask numPoints draws j then p2 j else p1 j, ?_, ?_, ?_⟩
    · rw [multiPoint, List.getElem?_append_left (by simpa using hlt), List.getElem?_map, hk]; rfl
    · rw [multiPoint, List.getElem?_append_right (by simp), List.length_map, Nat.add_sub_cancel, List.getElem?_map, hk]; rfl
    · intro j
      refine ⟨?_, fun hn => ?_⟩
      · by_cases h : crossMask numPoints draws j = true
        · left; simp [h]
        · right; simp [h]
      · simp only [crossMask, if_neg hn, foldl_xor, Bool.false_xor, decide_eq_true_eq]

/-- **C27 (one point).** With one point, solutions of length `l ≥ 2` and a draw in its range, the cut is strictly inside: the first child
has the second parent's genes before the cut and the first parent's from the cut on, with at least one gene of each. -/
theorem C27_one_point (d : Nat) (hd : d < drawRange 1 l) (hl : 2 ≤ l) (p1 p2 : Fin l → V) :
    ∃ c1 c2 cut, multiPoint 1 [(p1, p2, [d])] = [c1, c2] ∧ 1 ≤ cut ∧ cut < l ∧
      ∀ j : Fin l, (j.val < cut → c1 j = p2 j ∧ c2 j = p1 j) ∧ (cut ≤ j.val → c1 j = p1 j ∧ c2 j = p2 j) := by
  simp only [drawRange, if_true] at hd
  refine ⟨_, _, d + 1, rfl, by omega, by omega, fun j => ⟨fun h => ?_, fun h => ?_⟩⟩
  · have : ¬ (j.val ≥ d + 1) := by omega
    simp [crossMask, this]
  · have : j.val ≥ d + 1 := h
    simp [crossMask, this]

example : ((multiPoint 2 [((fun j : Fin 5 => (10 + j.val : Nat)), (fun j => 20 + j.val), [1, 3])]).map fun c => (List.finRange 5).map c) =
    [[20, 11, 12, 23, 24], [10, 21, 22, 13, 14]] := by decide

end C27

section C28

/-- **C28 (number).** The number of tournaments is even. With `num_children = c` it is `c`, and an odd `c` is refused; with neither argument it
is the batch size rounded up to an even number; with a rate it is at most one away from `rate * len`. -/
theorem C28_num_tournaments (len : Nat) (numChildren : Option Int) (rate : Option ℚ) :
    (∀ t, numTournaments len numChildren rate = .ok t → t % 2 = 0) ∧
    (numChildren = none → rate = none → ∃ t, numTournaments len numChildren rate = .ok t ∧ (len : Int) ≤ t ∧ t ≤ len + 1) ∧
    (∀ c, numChildren = some c → rate = none → (c % 2 = 0 → numTournaments len numChildren rate = .ok c) ∧
      (c % 2 ≠ 0 → numTournaments len numChildren rate = .error .valueError)) ∧
    (∀ rt, numChildren = none → rate = some rt → ∃ t, numTournaments len numChildren rate = .ok t ∧
      (t : ℚ) - 1 ≤ rt * len ∧ rt * len ≤ (t : ℚ) + 1) := by
  refine ⟨?_, ?_, ?_, ?_⟩
  · intro t h
    unfold numTournaments at h
    split at h
    · cases h; split <;> omega
    · cases h
    · split at h
      · cases h
      · cases h; omega
    · rename_i rt
      simp only [Except.ok.injEq] at h
      subst h
      have h1 : ⌊(len : ℚ) * rt⌋ ≤ ⌈(len : ℚ) * rt⌉ := Int.floor_le_ceil _
      have h2 : ⌈(len : ℚ) * rt⌉ ≤ ⌊(len : ℚ) * rt⌋ + 1 := Int.ceil_le_floor_add_one _
      generalize ⌊(len : ℚ) * rt⌋ = a at *
      generalize ⌈(len : ℚ) * rt⌉ = b at *
      by_cases e : b = a
      · subst e; simp only [if_true]; split <;> omega
      · rw [if_neg e]; split <;> omega
  · rintro rfl rfl
    simp only [numTournaments]
    by_cases h : (len : Int) % 2 ≠ 0
    · exact ⟨_, rfl, by rw [if_pos h]; omega, by rw [if_pos h]⟩
    · exact ⟨_, rfl, by rw [if_neg h], by rw [if_neg h]; omega⟩
  · rintro c rfl rfl
    simp only [numTournaments]
    exact ⟨fun h => by rw [if_neg (by simpa using h)], fun h => by rw [if_pos h]⟩
  · rintro rt rfl rfl
    refine ⟨_, rfl, ?_⟩
    have h1 : (⌊(len : ℚ) * rt⌋ : ℚ) ≤ (len : ℚ) * rt := Int.floor_le _
    have h2 : (len : ℚ) * rt < (⌊(len : ℚ) * rt⌋ : ℚ) + 1 := Int.lt_floor_add_one _
    have h3 : (len : ℚ) * rt ≤ (⌈(len : ℚ) * rt⌉ : ℚ) := Int.le_ceil _
    have h4 : (⌈(len : ℚ) * rt⌉ : ℚ) < (len : ℚ) * rt + 1 := Int.ceil_lt_add_one _
    have hc : rt * (len : ℚ) = (len : ℚ) * rt := mul_comm _ _
    rw [hc]
    by_cases e : ⌈(len : ℚ) * rt⌉ = ⌊(len : ℚ) * rt⌋
    · rw [if_pos e]
      split
      · push_cast
        rw [e] at h3 h4 ⊢
        constructor <;> linarith
      · constructor <;> linarith
    · rw [if_neg e]
      split <;> constructor <;> linarith

example : numTournaments 5 none (some (7 / 10)) = .ok 4 := by decide +kernel
example : numTournaments 5 none none = .ok 6 := by decide +kernel

/-- **C28 (children).** From an even number `t` of tournaments, the two groups of parents have the same size and multi-point cross-over
gives exactly `t` children. -/
theorem C28_children_count [OfNat K 0] (argmax : List K → Nat) (ranks : List K) (tournaments : List (List Nat)) (t : Nat)
    (ht : tournaments.length = t) (heven : t % 2 = 0) (numPoints : Nat) (data : Nat → Fin l → V) (draws : List (List Nat))
    (hdr : draws.length = t / 2) :
    let ps := tournamentParents argmax ranks tournaments
    ps.1.length = ps.2.length ∧
    (multiPoint numPoints ((ps.1.map data).zip ((ps.2.map data).zip draws))).length = t := by
  simp only [tournamentParents, List.length_map, List.length_take, List.length_drop, ht]
  refine ⟨by omega, ?_⟩
  rw [(C27_multi_point numPoints _).1]
  simp only [List.length_zip, List.length_map, List.length_take, List.length_drop, ht, hdr]
  omega

/-- Specification: the number of children which the documentation of `cross_over_rate` promises ("1.0 means `1.0 * len(solution_batch)` amount of cross overs will be performed,
resulting in `2.0 * len(solution_batch)` amount of children", `operators/real.py:114-117`). -/
def documentedChildren (len : Nat) (rate : ℚ) : ℚ := 2 * (rate * len)

/-- **C101 (partial).** The number of children is an even number within one of *half* of the documented number. -/
theorem C101_half_partial (len : Nat) (rate : ℚ) :
    ∃ t, numTournaments len none (some rate) = .ok t ∧ t % 2 = 0 ∧ (t : ℚ) - 1 ≤ documentedChildren len rate / 2 ∧ documentedChildren len rate / 2 ≤ (t : ℚ) + 1 := by
  obtain ⟨h1, _, _, h4⟩ := C28_num_tournaments len none (some rate)
  obtain ⟨t, ht, h5, h6⟩ := h4 rate rfl rfl
  have : documentedChildren len rate / 2 = rate * len := by unfold documentedChildren; ring
  exact ⟨t, ht, h1 t ht, by rw [this]; exact h5, by rw [this]; exact h6⟩

/-- **C101 violated.** For every batch and every rate which asks for more than one cross-over, strictly fewer children than documented are produced. -/
theorem C101_violated_rate (len : Nat) (rate : ℚ) (h : 1 < rate * len) (t : Int) (ht : numTournaments len none (some rate) = .ok t) :
    (t : ℚ) < documentedChildren len rate := by
  obtain ⟨t', ht', _, h5, _⟩ := C101_half_partial len rate
  rw [ht] at ht'
  cases ht'
  have : documentedChildren len rate / 2 = rate * len := by unfold documentedChildren; ring
  rw [this] at h5
  have : documentedChildren len rate = rate * len + rate * len := by unfold documentedChildren; ring
  rw [this]
  linarith

/-- A rate of one on ten solutions: ten children instead of twenty. -/
example : numTournaments 10 none (some 1) = .ok 10 ∧ documentedChildren 10 1 = 20 := by decide +kernel

end C28

section C29
variable [Field K] [LinearOrder K] [IsStrictOrderedRing K]

/-- `torch.argmax` of a non-empty vector. -/
def ArgmaxSpec (argmax : List K → Nat) : Prop :=
  ∀ l : List K, l ≠ [] → ∃ x, l[argmax l]? = some x ∧ ∀ y ∈ l, y ≤ x

omit [Field K] [IsStrictOrderedRing K] in
theorem winner_spec [OfNat K 0] {argmax : List K → Nat} (ha : ArgmaxSpec argmax) (ranks : List K) (contestants : List Nat) (hne : contestants ≠ []) :
    winner argmax ranks contestants ∈ contestants ∧
    ∀ c ∈ contestants, ranks.getD c 0 ≤ ranks.getD (winner argmax ranks contestants) 0 := by
  obtain ⟨x, hx, hmax⟩ := ha (contestants.map fun i => ranks.getD i 0) (by simpa using hne)
  obtain ⟨hlt, _⟩ := List.getElem?_eq_some_iff.mp hx
  have hlt' : argmax (contestants.map fun i => ranks.getD i 0) < contestants.length := by simpa using hlt
  have hw : winner argmax ranks contestants = contestants[argmax (contestants.map fun i => ranks.getD i 0)] := by
    rw [winner, List.getD_eq_getElem?_getD, List.getElem?_eq_getElem hlt']; rfl
  refine ⟨hw ▸ List.getElem_mem hlt', fun c hc => ?_⟩
  rw [List.getElem?_map, List.getElem?_eq_getElem hlt'] at hx
  simp only [Option.map_some, Option.some.injEq] at hx
  rw [hw, hx]
  exact hmax _ (List.mem_map.mpr ⟨c, hc, rfl⟩)

/-- **C29 (single objective).** Any population of evaluated solutions, any non-empty tournament: the winner is one of the contestants
and no contestant has a strictly better fitness. -/
theorem C29_single_objective {argmax : List K → Nat} (ha : ArgmaxSpec argmax) {sort : Selection.Sorter K} (hs : Selection.SorterSpec sort)
    (hib : Bool) (junk x : List K) (hj : junk.length = x.length) (contestants : List Nat) (hne : contestants ≠ [])
    (hc : ∀ c ∈ contestants, c < x.length) :
    let w := winner argmax (Ranking.centered sort hib junk x) contestants
    w ∈ contestants ∧ ∀ c ∈ contestants, ∀ a b, x[c]? = some a → x[w]? = some b → ¬ Ranking.Better hib a b := by
  intro w
  obtain ⟨hw, hmax⟩ := winner_spec ha (Ranking.centered sort hib junk x) contestants hne
  refine ⟨hw, fun c hcm a b hca hwb hbetter => ?_⟩
  rcases Nat.lt_or_ge x.length 2 with hn | hn
  · have h1 := hc c hcm
    have h2 := hc w hw
    have h3 : c = w := by omega
    rw [h3, hwb] at hca
    cases hca
    cases hib <;> simp [Ranking.Better] at hbetter
  have hlen : (Ranking.centered sort hib junk x).length = x.length := by
    rw [Ranking.centered, Ranking.scatter_length, hj]
  have hlt := (Ranking.C19_centered hs hib junk x hj hn).2.2 c w a b _ _ hca hwb hbetter
    (List.getElem?_eq_getElem (by rw [hlen]; exact hc c hcm)) (List.getElem?_eq_getElem (by rw [hlen]; exact hc w hw))
  have hle := hmax c hcm
  rw [List.getD_eq_getElem?_getD, List.getD_eq_getElem?_getD, List.getElem?_eq_getElem (by rw [hlen]; exact hc c hcm),
    List.getElem?_eq_getElem (by rw [hlen]; exact hc w hw)] at hle
  exact absurd hlt (not_lt.mpr hle)

/-- **C29 (multi-objective).** With draws in [0, 1], no contestant is in a better (smaller) front than the winner, whatever the draws. -/
theorem C29_multi_objective {argmax : List K → Nat} (ha : ArgmaxSpec argmax) (fronts : List Nat) (noise : List K)
    (hl : noise.length = fronts.length) (hnoise : ∀ x ∈ noise, 0 ≤ x ∧ x ≤ 1) (contestants : List Nat) (hne : contestants ≠ [])
    (hc : ∀ c ∈ contestants, c < fronts.length) :
    let w := winner argmax (multiRanks fronts noise) contestants
    w ∈ contestants ∧ ∀ c ∈ contestants, fronts.getD w 0 ≤ fronts.getD c 0 := by
  intro w
  obtain ⟨hw, hmax⟩ := winner_spec ha (multiRanks fronts noise) contestants hne
  refine ⟨hw, fun c hcm => ?_⟩
  have hle := hmax c hcm
  have hget : ∀ i, i < fronts.length → ∃ e : K, 0 ≤ e ∧ e ≤ 1 ∧
      (multiRanks fronts noise).getD i 0 = (((fronts.foldl max 0 + 1 : Nat) : K) - (fronts.getD i 0 : K)) + e * (1 / 10) := by
    intro i hi
    have hi' : i < noise.length := by omega
    refine ⟨noise[i], (hnoise _ (List.getElem_mem hi')).1, (hnoise _ (List.getElem_mem hi')).2, ?_⟩
    have hz : (fronts.zip noise)[i]? = some (fronts[i], noise[i]) := by
      rw [List.getElem?_zip_eq_some]
      exact ⟨List.getElem?_eq_getElem hi, List.getElem?_eq_getElem hi'⟩
    simp only [multiRanks, List.getD_eq_getElem?_getD, List.getElem?_map, hz, List.getElem?_eq_getElem hi, Option.map_some, Option.getD_some]
  obtain ⟨e1, h10, h11, hr1⟩ := hget c (hc c hcm)
  obtain ⟨e2, h20, h21, hr2⟩ := hget w (hc w hw)
  rw [hr1, hr2] at hle
  by_contra hlt
  push Not at hlt
  have hcast : (fronts.getD c 0 : K) + 1 ≤ (fronts.getD w 0 : K) := by exact_mod_cast hlt
  linarith

/-- **C29 (multi-objective, dominance).** With the Pareto ranks of the population, no contestant dominates the winner. -/
theorem C29_winner_not_dominated {m : Nat} {argmax : List K → Nat} (ha : ArgmaxSpec argmax) (senses : Fin m → BestWorst.Sense)
    (evals : Fin n → Fin m → K) (rank : Fin n → Nat) (hrank : Selection.IsParetoRank senses evals rank) (noise : List K)
    (hl : noise.length = n) (hnoise : ∀ x ∈ noise, 0 ≤ x ∧ x ≤ 1) (contestants : List (Fin n)) (hne : contestants ≠ []) :
    ∃ w ∈ contestants, w.val = winner argmax (multiRanks ((List.finRange n).map rank) noise) (contestants.map (·.val)) ∧
      ∀ c ∈ contestants, ¬ Selection.Dominates senses (evals c) (evals w) := by
  obtain ⟨hw, hbest⟩ := C29_multi_objective ha ((List.finRange n).map rank) noise (by simpa using hl) hnoise (contestants.map (·.val))
    (by simpa using hne) (by intro c hc; obtain ⟨i, _, rfl⟩ := List.mem_map.mp hc; simp)
  obtain ⟨w, hwm, hwv⟩ := List.mem_map.mp hw
  refine ⟨w, hwm, hwv, fun c hc => ?_⟩
  have h := hbest c.val (List.mem_map.mpr ⟨c, hc, rfl⟩)
  rw [← hwv] at h
  have hg : ∀ i : Fin n, ((List.finRange n).map rank).getD i.val 0 = rank i := by
    intro i; simp [List.getD_eq_getElem?_getD]
  rw [hg, hg] at h
  exact ((hrank w (rank w)).mp rfl).2 c h

/-- A concrete argmax meets the specification. -/
def exArgmax (l : List ℚ) : Nat := l.idxOf (l.foldl max (l.headD 0))

theorem exArgmax_spec : ArgmaxSpec exArgmax := by
  intro l hne
  have key : ∀ (l : List ℚ) (a : ℚ), (∀ y ∈ l, y ≤ l.foldl max a) ∧ a ≤ l.foldl max a ∧ (l.foldl max a = a ∨ l.foldl max a ∈ l) := by
    intro l
    induction l with
    | nil => intro a; simp
    | cons b l ih =>
      intro a
      obtain ⟨h1, h2, h3⟩ := ih (max a b)
      rw [List.foldl_cons]
      refine ⟨fun y hy => ?_, le_trans (le_max_left _ _) h2, ?_⟩
      · rcases List.mem_cons.mp hy with rfl | hy
        · exact le_trans (le_max_right _ _) h2
        · exact h1 y hy
      · rcases h3 with h3 | h3
        · rw [h3]
          rcases max_choice a b with h | h
          · left; exact h
          · right; rw [h]; simp
        · right; exact List.mem_cons_of_mem _ h3
  obtain ⟨h1, _, h3⟩ := key l (l.headD 0)
  have hmem : l.foldl max (l.headD 0) ∈ l := by
    rcases h3 with h | h
    · rw [h]; cases l with
      | nil => exact absurd rfl hne
      | cons a t => simp
    · exact h
  refine ⟨_, ?_, h1⟩
  rw [exArgmax, List.getElem?_eq_getElem (List.idxOf_lt_length_iff.mpr hmem), List.getElem_idxOf]

example : winner exArgmax (Ranking.centered Selection.exampleSorter true [0, 0, 0, 0] [(5 : ℚ), 1, 3, 9]) [1, 2, 0, 2] = 0 := by decide +kernel

end C29

section C30

/-- **C30.** Before clipping: the two children sum to the parents' sum in every gene; the distance between them is `beta` times that of the
parents, with `beta ≤ 1` for a draw `u ≤ 1/2` and `beta ≥ 1` for `u ≥ 1/2`; and for `u = 1/2` they are the parents. -/
theorem C30_sbx_mean {eta u : ℝ} (he : 0 < eta + 1) (h0 : 0 ≤ u) (h1 : u < 1) (p1 p2 : ℝ) :
    sbxChild1 eta u p1 p2 + sbxChild2 eta u p1 p2 = p1 + p2 ∧
    sbxChild1 eta u p1 p2 - sbxChild2 eta u p1 p2 = sbxBeta eta u * (p1 - p2) ∧
    0 ≤ sbxBeta eta u ∧ (u ≤ 1 / 2 → sbxBeta eta u ≤ 1) ∧ (1 / 2 ≤ u → 1 ≤ sbxBeta eta u) ∧
    (u = 1 / 2 → sbxChild1 eta u p1 p2 = p1 ∧ sbxChild2 eta u p1 p2 = p2) := by
  have hpos : 0 < 1 / (eta + 1) := by positivity
  have hhalf : sbxBeta eta (1 / 2) = 1 := by simp [sbxBeta]
  refine ⟨by simp only [sbxChild1, sbxChild2]; ring, by simp only [sbxChild1, sbxChild2]; ring, ?_, ?_, ?_, ?_⟩
  · unfold sbxBeta
    split
    · apply Real.rpow_nonneg; apply div_nonneg zero_le_one; linarith
    · apply Real.rpow_nonneg; linarith
  · intro hu
    rw [sbxBeta, if_neg (by linarith)]
    exact Real.rpow_le_one (by linarith) (by linarith) hpos.le
  · intro hu
    rcases eq_or_lt_of_le hu with rfl | hu
    · rw [hhalf]
    · rw [sbxBeta, if_pos hu]
      apply Real.one_le_rpow _ hpos.le
      rw [le_div_iff₀ (by linarith)]; linarith
  · rintro rfl
    simp only [sbxChild1, sbxChild2, hhalf]
    constructor <;> ring

example : (0 : ℝ) < 15 + 1 ∧ (0 : ℝ) ≤ 7 / 10 ∧ (7 / 10 : ℝ) < 1 := by norm_num

end C30

section C31

theorem take_count_eq_filter (S : Nat → Bool) (p : List Nat) (h : p.Pairwise fun i j => S j = true → S i = true) :
    p.take (p.countP S) = p.filter S := by
  induction p with
  | nil => rfl
  | cons a p ih =>
    obtain ⟨h1, h2⟩ := List.pairwise_cons.mp h
    by_cases ha : S a = true
    · rw [List.countP_cons_of_pos ha, List.take_succ_cons, List.filter_cons_of_pos ha, ih h2]
    · rw [List.countP_cons_of_neg ha, List.filter_cons_of_neg ha]
      have hnone : ∀ b ∈ p, ¬ S b = true := fun b hb hc => ha (h1 b hb hc)
      rw [List.countP_eq_zero.mpr hnone, List.take_zero, List.filter_eq_nil_iff.mpr hnone]

theorem scatter_filterMap {α : Type} (idx : List Nat) (w d : List α) (hn : idx.Nodup) (hl : idx.length = w.length)
    (hi : ∀ i ∈ idx, i < d.length) : idx.filterMap (fun i => (Ranking.scatter d idx w)[i]?) = w := by
  have h1 : idx.map (fun i => (Ranking.scatter d idx w)[i]?) = w.map some := by
    apply List.ext_getElem?; intro k
    rw [List.getElem?_map, List.getElem?_map]
    rcases Nat.lt_or_ge k idx.length with hk | hk
    · have hkw : k < w.length := by omega
      have := Ranking.scatter_get idx w d hn hl hi k _ (List.getElem?_eq_getElem hk)
      rw [List.getElem?_eq_getElem hk]
      simp only [Option.map_some, this, List.getElem?_eq_getElem hkw]
    · rw [List.getElem?_eq_none hk, List.getElem?_eq_none (by omega)]; rfl
  have h2 : idx.filterMap (fun i => (Ranking.scatter d idx w)[i]?) = (idx.map fun i => (Ranking.scatter d idx w)[i]?).filterMap id := by
    rw [List.filterMap_map]; rfl
  rw [h2, h1, List.filterMap_map]
  simp

theorem filterMap_range {α : Type} (l : List α) : (List.range l.length).filterMap (fun i => l[i]?) = l := by
  induction l with
  | nil => rfl
  | cons a l ih =>
    rw [List.length_cons, List.range_succ_eq_map, List.filterMap_cons]
    simp only [List.getElem?_cons_zero, List.filterMap_map]
    congr 1

variable [Field K] [LinearOrder K] [IsStrictOrderedRing K]

omit [Field K] [IsStrictOrderedRing K] in
/-- What one column of the Cosyne permutation does: the selected positions, in ascending order, receive the values of the selected positions, in the order of their draws. -/
theorem cosyne_form [OfNat K 1] {sort : List K → List Nat} (hsort : ∀ l, Selection.IsArgsort (· ≤ ·) l (sort l))
    {sortNat : List Nat → List Nat} (hnat : ∀ l, (sortNat l).Perm l ∧ (sortNat l).Pairwise (· ≤ ·))
    (mask : List Bool) (rnd : List K) (col : List V) (hr : rnd.length = mask.length) (hlt : ∀ x ∈ rnd, x < 1) :
    ((List.range mask.length).filter fun i => (mask[i]?).getD false).length = mask.count true ∧
    ∃ tgt : List Nat, tgt.Perm ((List.range mask.length).filter fun i => (mask[i]?).getD false) ∧
      (tgt.Pairwise fun i j => ∀ x y, rnd[i]? = some x → rnd[j]? = some y → x ≤ y) ∧
      cosyneColumn sort sortNat mask rnd col =
        Ranking.scatter col ((List.range mask.length).filter fun i => (mask[i]?).getD false) (tgt.filterMap fun i => col[i]?) := by
  set n := mask.length with hn
  let S : Nat → Bool := fun i => (mask[i]?).getD false
  let M := (List.range n).filter S
  have hcountM : M.length = mask.count true := by
    have : mask = (List.range n).map S := by
      apply List.ext_getElem? ; intro i
      rw [List.getElem?_map]
      rcases Nat.lt_or_ge i n with h | h
      · rw [List.getElem?_range h]
        simp only [Option.map_some, S, List.getElem?_eq_getElem (show i < mask.length from h), Option.getD_some]
      · rw [List.getElem?_eq_none (show mask.length ≤ i from h), List.getElem?_eq_none (by simpa using h)]; rfl
    rw [this, List.count, List.countP_map, List.countP_eq_length_filter]
    simp only [M]
    congr 1
    apply List.filter_congr
    intro i _
    simp
  -- targets
  let permRand := (mask.zip rnd).map fun mr => if mr.1 then mr.2 else 1
  have hprl : permRand.length = n := by simp [permRand, hr, ← hn]
  have hpr : ∀ i (h : i < n), permRand[i]? = some (if S i then rnd[i]'(by omega) else 1) := by
    intro i h
    have hz : (mask.zip rnd)[i]? = some (mask[i], rnd[i]'(by omega)) := by
      rw [List.getElem?_zip_eq_some]
      exact ⟨List.getElem?_eq_getElem h, List.getElem?_eq_getElem (by omega)⟩
    simp only [permRand, List.getElem?_map, hz, Option.map_some, S, List.getElem?_eq_getElem (show i < mask.length from h), Option.getD_some]
  let p := sort permRand
  have hp : p.Perm (List.range n) := by have := (hsort permRand).1; rwa [hprl] at this
  have hpS : p.Pairwise fun i j => S j = true → S i = true := by
    have hpw := (hsort permRand).2
    have hmem : ∀ i ∈ p, i < n := fun i hi => by simpa using hp.mem_iff.mp hi
    refine List.Pairwise.imp_of_mem (fun {i j} hi hj hij hSj => ?_) hpw
    by_contra hSi
    have h1 := hij _ _ (hpr i (hmem i hi)) (hpr j (hmem j hj))
    rw [if_neg hSi, if_pos hSj] at h1
    exact absurd (hlt _ (List.getElem_mem _)) (not_lt.mpr h1)
  have hpM : (p.filter S).Perm M := hp.filter S
  have htarget : p.take (mask.count true) = p.filter S := by
    rw [← hcountM, ← hpM.length_eq, ← List.countP_eq_length_filter]
    exact take_count_eq_filter S p hpS
  -- origins
  let L := (mask.zip (List.range n)).map fun mi => if mi.1 then mi.2 else mi.2 + (n + 1)
  let q := sortNat L
  have hL : L = (List.range n).map fun i => if S i then i else i + (n + 1) := by
    apply List.ext_getElem?; intro i
    rcases Nat.lt_or_ge i n with h | h
    · have hz : (mask.zip (List.range n))[i]? = some (mask[i], i) := by
        rw [List.getElem?_zip_eq_some]
        exact ⟨List.getElem?_eq_getElem h, List.getElem?_range h⟩
      simp only [L, List.getElem?_map, hz, List.getElem?_range h, Option.map_some, S, List.getElem?_eq_getElem (show i < mask.length from h),
        Option.getD_some]
    · rw [List.getElem?_eq_none (by simp [L, ← hn]; omega), List.getElem?_eq_none (by simpa using h)]
  let T : Nat → Bool := fun v => decide (v ≤ n)
  have hqS : q.Pairwise fun i j => T j = true → T i = true :=
    (hnat L).2.imp fun {i j} hij h => by simp only [T, decide_eq_true_eq] at h ⊢; omega
  have hqM : (q.filter T).Perm M := by
    refine ((hnat L).1.filter T).trans (List.Perm.of_eq ?_)
    rw [hL, List.filter_map]
    have h1 : (List.range n).filter (T ∘ fun i => if S i then i else i + (n + 1)) = M := by
      apply List.filter_congr
      intro i hi
      have hi' := List.mem_range.mp hi
      by_cases hS : S i = true
      · simp only [Function.comp, hS, if_true, T, decide_eq_true_eq]; omega
      · simp only [Function.comp, hS, T, Bool.false_eq_true, if_false]
        simp; omega
    rw [h1]
    have h2 : ∀ i ∈ M, (if S i then i else i + (n + 1)) = i := by
      intro i hi
      rw [if_pos (List.mem_filter.mp hi).2]
    rw [List.map_congr_left h2]; simp
  have horigin : q.take (mask.count true) = q.filter T := by
    rw [← hcountM, ← hqM.length_eq, ← List.countP_eq_length_filter]
    exact take_count_eq_filter T q hqS
  have hMsorted : M.Pairwise (· ≤ ·) := (List.pairwise_lt_range.imp fun h => Nat.le_of_lt h).filter _
  have hqeq : q.filter T = M :=
    List.Perm.eq_of_pairwise (le := fun a b : Nat => a ≤ b) (fun a b _ _ h1 h2 => Nat.le_antisymm h1 h2) ((hnat L).2.filter _) hMsorted hqM
  refine ⟨hcountM, p.filter S, hpM, ?_, ?_⟩
  · have hmem : ∀ i ∈ p, i < n := fun i hi => by simpa using hp.mem_iff.mp hi
    refine List.Pairwise.imp_of_mem (fun {i j} hi hj hij x y hx hy => ?_) ((hsort permRand).2.filter S)
    have hi' := List.mem_filter.mp hi; have hj' := List.mem_filter.mp hj
    have h1 := hij _ _ (hpr i (hmem i hi'.1)) (hpr j (hmem j hj'.1))
    rw [if_pos hi'.2, if_pos hj'.2] at h1
    rw [List.getElem?_eq_getElem (by have := hmem i hi'.1; omega)] at hx
    rw [List.getElem?_eq_getElem (by have := hmem j hj'.1; omega)] at hy
    rw [← Option.some.inj hx, ← Option.some.inj hy]; exact h1
  · show Ranking.scatter col (q.take (mask.count true)) ((p.take (mask.count true)).filterMap fun i => col[i]?) = _
    rw [htarget, horigin, hqeq]

omit [Field K] [IsStrictOrderedRing K] in
/-- **C31.** For every column, mask and draws below 1: the result is a rearrangement of the column, and every entry that was not selected keeps
its place. -/
theorem C31_cosyne_column [OfNat K 1] {sort : List K → List Nat} (hsort : ∀ l, Selection.IsArgsort (· ≤ ·) l (sort l))
    {sortNat : List Nat → List Nat} (hnat : ∀ l, (sortNat l).Perm l ∧ (sortNat l).Pairwise (· ≤ ·))
    (mask : List Bool) (rnd : List K) (col : List V) (hr : rnd.length = mask.length) (hc : col.length = mask.length)
    (hlt : ∀ x ∈ rnd, x < 1) :
    (cosyneColumn sort sortNat mask rnd col).Perm col ∧
    ∀ i : Nat, mask[i]? = some false → (cosyneColumn sort sortNat mask rnd col)[i]? = col[i]? := by
  set n := mask.length with hn
  obtain ⟨-, tgt, hpM, -, hres⟩ := cosyne_form hsort hnat mask rnd col hr hlt
  let S : Nat → Bool := fun i => (mask[i]?).getD false
  set M := (List.range n).filter fun i => (mask[i]?).getD false with hM
  -- the result
  have hMlt : ∀ i ∈ M, i < col.length := fun i hi => by rw [hc]; exact List.mem_range.mp (List.mem_filter.mp hi).1
  have hMnd : M.Nodup := List.nodup_range.filter _
  have hwlen : ((tgt).filterMap fun i => col[i]?).length = (tgt).length := by
    have : ∀ A : List Nat, (∀ i ∈ A, i < col.length) → (A.filterMap fun i => col[i]?).length = A.length := by
      intro A hA
      induction A with
      | nil => rfl
      | cons a A ih =>
        rw [List.filterMap_cons, List.getElem?_eq_getElem (hA a (by simp))]
        simp [ih fun i hi => hA i (List.mem_cons_of_mem _ hi)]
    exact this _ fun i hi => hMlt i (hpM.mem_iff.mp hi)
  have hother : ∀ i, i ∉ M → (cosyneColumn sort sortNat mask rnd col)[i]? = col[i]? := by
    intro i hi
    rw [hres, Ranking.scatter_other _ _ _ (fun h => hi h)]
  constructor
  · let R := (List.range n).filter fun i => !S i
    have hMR : (M ++ R).Perm (List.range n) := List.filter_append_perm S _
    have hlen : (cosyneColumn sort sortNat mask rnd col).length = n := by rw [hres, Ranking.scatter_length, hc]
    have h1 : (cosyneColumn sort sortNat mask rnd col).Perm
        ((M ++ R).filterMap fun i => (cosyneColumn sort sortNat mask rnd col)[i]?) := by
      have h := filterMap_range (cosyneColumn sort sortNat mask rnd col)
      rw [hlen] at h
      conv_lhs => rw [← h]
      exact (hMR.symm).filterMap _
    refine h1.trans ?_
    rw [List.filterMap_append]
    have h2 : (M).filterMap (fun i => (cosyneColumn sort sortNat mask rnd col)[i]?) = (tgt).filterMap fun i => col[i]? := by
      rw [hres]
      exact scatter_filterMap _ _ _ hMnd (by rw [hwlen, hpM.length_eq, ])
        hMlt
    have h3 : R.filterMap (fun i => (cosyneColumn sort sortNat mask rnd col)[i]?) = R.filterMap fun i => col[i]? := by
      apply List.filterMap_congr
      intro i hi
      apply hother
      intro hM
      have := (List.mem_filter.mp hi).2
      rw [show S i = true from (List.mem_filter.mp hM).2] at this
      simp at this
    rw [h2, h3, ← List.filterMap_append]
    have h4 := (((hpM.append_right R).trans hMR)).filterMap (fun i => col[i]?)
    have h5 := filterMap_range col
    rw [hc] at h5
    rw [h5] at h4
    exact h4
  · intro i hi
    apply hother
    intro hM
    have := (List.mem_filter.mp hM).2
    simp [S, hi] at this

example : cosyneColumn (Selection.exampleSorter false) (fun l => l.insertionSort (· ≤ ·)) [true, false, true, true] [(9 / 10 : ℚ), 0, 1 / 2, 1 / 10]
    ["a", "b", "c", "d"] = ["d", "b", "c", "a"] := by decide +kernel

end C31

section C32

/-- **C32.** Whenever both cut points are within their parents: each child is a prefix of one parent followed by a suffix of the other, and
together they have exactly the elements of both parents; the numbers of elements add up. -/
theorem C32_cut_and_splice (p1 p2 : List V) (c1 c2 : Nat) (h1 : c1 < p1.length) (h2 : c2 < p2.length) :
    ∃ a b, cutAndSplice p1 p2 c1 c2 = some (a, b) ∧
      (∃ u v, a = u ++ v ∧ u <+: p1 ∧ v <:+ p2) ∧ (∃ u v, b = u ++ v ∧ u <+: p2 ∧ v <:+ p1) ∧
      (a ++ b).Perm (p1 ++ p2) ∧ a.length + b.length = p1.length + p2.length := by
  refine ⟨p1.take c1 ++ p2.drop c2, p2.take c2 ++ p1.drop c1, by simp [cutAndSplice, h1, h2], ⟨_, _, rfl, List.take_prefix _ _, List.drop_suffix _ _⟩,
    ⟨_, _, rfl, List.take_prefix _ _, List.drop_suffix _ _⟩, ?_, ?_⟩
  · have e1 : p1 ++ p2 = (p1.take c1 ++ p1.drop c1) ++ (p2.take c2 ++ p2.drop c2) := by simp
    rw [e1]
    have := (List.perm_append_comm (l₁ := p2.drop c2) (l₂ := p2.take c2 ++ p1.drop c1))
    calc (p1.take c1 ++ p2.drop c2) ++ (p2.take c2 ++ p1.drop c1)
        = p1.take c1 ++ (p2.drop c2 ++ (p2.take c2 ++ p1.drop c1)) := by simp
      _ |>.Perm (p1.take c1 ++ ((p2.take c2 ++ p1.drop c1) ++ p2.drop c2)) := this.append_left _
      _ = p1.take c1 ++ ((p2.take c2 ++ p1.drop c1) ++ p2.drop c2) := rfl
      _ |>.Perm (p1.take c1 ++ ((p1.drop c1 ++ p2.take c2) ++ p2.drop c2)) :=
          ((List.perm_append_comm (l₁ := p2.take c2) (l₂ := p1.drop c1)).append_right _).append_left _
      _ = _ := by simp only [List.append_assoc]
  · simp only [List.length_append, List.length_take, List.length_drop]; omega

example : cutAndSplice [1, 2, 3] [7, 8] 1 1 = some ([1, 8], [7, 2, 3]) := rfl

end C32
end EvoTorch.Operators
