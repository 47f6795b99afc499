import Verif.Model.RoundingRuns
import Verif.Proofs.Rounding
/-!
C161 over runs: what rounding does to the limits of the standard deviation and to the statistics of observations, for every history.
-/
namespace EvoTorch.Rounding
variable {F : Fmt} {rnd : ℚ → ℚ}

private theorem modify_float (h : Nearest F rnd) {lb ub mc : Option ℚ} (hlb : ∀ l ∈ lb, IsFloat F l) (hub : ∀ u ∈ ub, IsFloat F u) {o t : ℚ} (ht : IsFloat F t) :
    IsFloat F (modify rnd lb ub mc o t) := by
  have hmax : ∀ x y, IsFloat F x → IsFloat F y → IsFloat F (max x y) := by
    intro x y hx hy; rcases max_choice x y with e | e <;> rw [e] <;> assumption
  have hmin : ∀ x y, IsFloat F x → IsFloat F y → IsFloat F (min x y) := by
    intro x y hx hy; rcases min_choice x y with e | e <;> rw [e] <;> assumption
  rcases mc with _ | c <;> rcases lb with _ | l <;> rcases ub with _ | u <;> simp only [modify] <;>
    simp only [Option.mem_def, Option.some.injEq, forall_eq'] at hlb hub <;>
    first
      | exact ht
      | (repeat' first | exact ht | exact hlb | exact hub | exact h.float _ | apply hmax | apply hmin)

/-- The values of a run within limits stay within them. -/
private theorem modify_within (h : Nearest F rnd) {lb ub mc : Option ℚ} (hc : ∀ c ∈ mc, 0 ≤ c) (hb : ∀ l ∈ lb, ∀ u ∈ ub, l ≤ u) {o t : ℚ} (ho : IsFloat F o)
    (hlo : ∀ l ∈ lb, l ≤ o) (hou : ∀ u ∈ ub, o ≤ u) :
    (∀ l ∈ lb, l ≤ modify rnd lb ub mc o t) ∧ ∀ u ∈ ub, modify rnd lb ub mc o t ≤ u := by
  have key : ∀ c, 0 ≤ c → o ≤ rnd (o + rnd (|o| * c)) := by
    intro c hc
    apply h.float_le ho
    have : 0 ≤ rnd (|o| * c) := h.float_le isFloat_zero (mul_nonneg (abs_nonneg o) hc)
    linarith
  rcases mc with _ | c <;> rcases lb with _ | l <;> rcases ub with _ | u <;> simp only [modify] <;>
    simp only [Option.mem_def, Option.some.injEq, forall_eq', reduceCtorEq, false_imp_iff, implies_true, true_and, and_true] at *
  · exact min_le_right _ _
  · exact le_max_right _ _
  · exact ⟨le_min (le_max_right _ _) hb, min_le_right _ _⟩
  · exact le_trans (min_le_right _ _) (min_le_left _ _)
  · exact le_min (le_trans (le_max_left _ _) (le_max_right _ _)) (le_trans hlo (key c hc))
  · exact ⟨le_min (le_trans (le_max_left _ _) (le_max_right _ _)) (le_min hb (le_trans hlo (key c hc))), le_trans (min_le_right _ _) (min_le_left _ _)⟩

/-- **C161.** With `stdev_min`, `stdev_max` and `stdev_max_change` (any of them), a standard deviation that begins within the limits is within them, exactly, after every one of any number of updates, whatever the
updates ask for, and although every operation rounds. -/
theorem C161_stdev_limits (h : Nearest F rnd) {lb ub mc : Option ℚ} (hlb : ∀ l ∈ lb, IsFloat F l) (hub : ∀ u ∈ ub, IsFloat F u) (hc : ∀ c ∈ mc, 0 ≤ c) (hb : ∀ l ∈ lb, ∀ u ∈ ub, l ≤ u)
    {sigma : ℚ} (hs : IsFloat F sigma) (hlo : ∀ l ∈ lb, l ≤ sigma) (hhi : ∀ u ∈ ub, sigma ≤ u) (targets : List ℚ) (ht : ∀ t ∈ targets, IsFloat F t) :
    ∀ s ∈ stdevs rnd lb ub mc sigma targets, (∀ l ∈ lb, l ≤ s) ∧ ∀ u ∈ ub, s ≤ u := by
  induction targets generalizing sigma with
  | nil => intro s hs'; simp only [stdevs, List.mem_singleton] at hs'; subst hs'; exact ⟨hlo, hhi⟩
  | cons t ts ih =>
    intro s hs'
    simp only [stdevs, List.mem_cons] at hs'
    rcases hs' with rfl | hs'
    · exact ⟨hlo, hhi⟩
    · have hw := modify_within (t := t) h hc hb hs hlo hhi
      exact ih (modify_float h hlb hub (ht t (by simp))) hw.1 hw.2 (fun t' ht' => ht t' (by simp [ht'])) s hs'

/-- Less than half of a positive number rounds to less than the number. -/
private theorem rnd_part_lt (h : Nearest F rnd) {x c : ℚ} (hx : 0 < x) (hc : 0 ≤ c) (hc' : c < 1 / 2) : rnd (x * c) < x := by
  have h0 := (h (x * c)).2 0 isFloat_zero
  have hxc : 0 ≤ x * c := by positivity
  rw [zero_sub, abs_neg, abs_of_nonneg hxc] at h0
  have h1 := le_trans (le_abs_self _) h0
  nlinarith

/-- **C161.** With a `stdev_max_change` below one half (PGPE's is 0.2), a positive standard deviation stays positive through any number of updates, even if the updates ask for zero or for a negative one. -/
theorem C161_stdev_positive (h : Nearest F rnd) (hp : 1 ≤ F.p) {lb ub : Option ℚ} {c : ℚ} (hlb : ∀ l ∈ lb, IsFloat F l) (hub : ∀ u ∈ ub, IsFloat F u ∧ 0 < u) (hc : 0 ≤ c) (hc' : c < 1 / 2)
    {sigma : ℚ} (hs : IsFloat F sigma) (hpos : 0 < sigma) (targets : List ℚ) (ht : ∀ t ∈ targets, IsFloat F t) :
    ∀ s ∈ stdevs rnd lb ub (some c) sigma targets, 0 < s := by
  induction targets generalizing sigma with
  | nil => intro s hs'; simp only [stdevs, List.mem_singleton] at hs'; subst hs'; exact hpos
  | cons t ts ih =>
    intro s hs'
    simp only [stdevs, List.mem_cons] at hs'
    rcases hs' with rfl | hs'
    · exact hpos
    · refine ih (modify_float h hlb (fun u hu => (hub u hu).1) (ht t (by simp))) ?_ (fun t' ht' => ht t' (by simp [ht'])) s hs'
      have hlow : 0 < rnd (sigma - rnd (|sigma| * c)) := by
        rw [h.sub_pos hp hs (h.float _), abs_of_pos hpos]
        exact rnd_part_lt h hpos hc hc'
      have hhigh : 0 < rnd (sigma + rnd (|sigma| * c)) := by
        refine lt_of_lt_of_le hpos (h.float_le hs ?_)
        have : 0 ≤ rnd (|sigma| * c) := h.float_le isFloat_zero (by positivity)
        linarith
      rcases lb with _ | l <;> rcases ub with _ | u <;> simp only [modify]
      · exact lt_min (lt_of_lt_of_le hlow (le_max_right _ _)) hhigh
      · exact lt_min (lt_of_lt_of_le hlow (le_max_right _ _)) (lt_min (hub u rfl).2 hhigh)
      · exact lt_min (lt_of_lt_of_le hlow (le_trans (le_max_right _ _) (le_max_right _ _))) hhigh
      · exact lt_min (lt_of_lt_of_le hlow (le_trans (le_max_right _ _) (le_max_right _ _))) (lt_min (hub u rfl).2 hhigh)

example : ∀ s ∈ stdevs (roundTo float32) none none (some (roundTo float32 (1 / 5))) 1 [-3, 0, 2], 0 < s :=
  C161_stdev_positive (roundTo_nearest (by norm_num [float32])) (by norm_num [float32]) (by simp) (by simp)
    ((roundTo_nearest (by norm_num [float32])).float_le isFloat_zero (by norm_num)) (by decide +kernel) ⟨1, 0, by norm_num [float32], by norm_num [float32], by norm_num⟩ (by norm_num) _
    (by
      intro t ht
      simp only [List.mem_cons, List.not_mem_nil, or_false] at ht
      rcases ht with rfl | rfl | rfl
      · exact ⟨-3, 0, by norm_num [float32], by norm_num [float32], by norm_num⟩
      · exact isFloat_zero
      · exact ⟨2, 0, by norm_num [float32], by norm_num [float32], by norm_num⟩)

/-- **C161 (violated).** With a `stdev_max_change` of 3/4, updates that ask for zero may each take away three quarters at most, so the standard deviation should stay positive; rounded, it becomes 0 in
finitely many steps. -/
theorem C161_violated_stdev (h : Nearest F rnd) (hp : 2 ≤ F.p) (k : ℕ) :
    stdevs id none none (some (3 / 4)) ((2 : ℚ) ^ (F.emin + 2 * k)) (List.replicate (k + 1) 0) ≠ [] ∧
      (∀ s ∈ stdevs id none none (some (3 / 4)) ((2 : ℚ) ^ (F.emin + 2 * k)) (List.replicate (k + 1) 0), 0 < s) ∧
      0 ∈ stdevs rnd none none (some (3 / 4)) ((2 : ℚ) ^ (F.emin + 2 * k)) (List.replicate (k + 1) 0) := by
  have hexact : ∀ (n : ℕ) (s : ℚ), 0 < s → ∀ x ∈ stdevs id none none (some (3 / 4)) s (List.replicate n 0), 0 < x := by
    intro n
    induction n with
    | zero => intro s hs x hx; simp only [List.replicate, stdevs, List.mem_singleton] at hx; subst hx; exact hs
    | succ n ih =>
      intro s hs x hx
      simp only [List.replicate, stdevs, List.mem_cons] at hx
      rcases hx with rfl | hx
      · exact hs
      · refine ih _ ?_ x hx
        simp only [modify, id, abs_of_pos hs]
        exact lt_min (lt_of_lt_of_le (by linarith : (0 : ℚ) < s - s * (3 / 4)) (le_max_right _ _)) (by positivity)
  refine ⟨by cases k <;> simp [stdevs, List.replicate], hexact _ _ (two_pos _), ?_⟩
  have hp4 : (4 : ℤ) ≤ 2 ^ F.p := by
    calc (4 : ℤ) = 2 ^ 2 := by norm_num
      _ ≤ 2 ^ F.p := pow_le_pow_right₀ (by norm_num) hp
  induction k with
  | zero =>
    have he := two_pos F.emin
    have hη : IsFloat F ((2 : ℚ) ^ F.emin) := ⟨1, F.emin, by rw [abs_one]; linarith, le_refl _, by simp⟩
    have hr : rnd ((2 : ℚ) ^ F.emin * (3 / 4)) = (2 : ℚ) ^ F.emin := by
      obtain ⟨j, hj⟩ := isFloat_multiple (h.float ((2 : ℚ) ^ F.emin * (3 / 4)))
      have hn := (h ((2 : ℚ) ^ F.emin * (3 / 4))).2 _ hη
      rw [hj] at hn ⊢
      have e1 : (j : ℚ) * (2 : ℚ) ^ F.emin - (2 : ℚ) ^ F.emin * (3 / 4) = (j - 3 / 4) * (2 : ℚ) ^ F.emin := by ring
      have e2 : (2 : ℚ) ^ F.emin - (2 : ℚ) ^ F.emin * (3 / 4) = (1 / 4) * (2 : ℚ) ^ F.emin := by ring
      rw [e1, e2, abs_mul, abs_mul, abs_of_pos he] at hn
      have hn' := le_of_mul_le_mul_right hn he
      rw [abs_le] at hn'
      have a1 : (0 : ℚ) < j := by have := hn'.1; rw [abs_of_pos (by norm_num)] at this; linarith
      have a2 : (j : ℚ) < 2 := by have := hn'.2; rw [abs_of_pos (by norm_num)] at this; linarith
      have : j = 1 := by
        have b1 : (0 : ℤ) < j := by exact_mod_cast a1
        have b2 : j < (2 : ℤ) := by exact_mod_cast a2
        omega
      rw [this]; simp
    have hup : (0 : ℚ) ≤ rnd ((2 : ℚ) ^ F.emin + (2 : ℚ) ^ F.emin) := h.float_le isFloat_zero (by positivity)
    simp only [List.replicate, stdevs, modify, List.mem_cons, Nat.cast_zero, mul_zero, add_zero, abs_of_pos he, hr, sub_self, h.zero, max_self]
    right; left
    exact (min_eq_left hup).symm
  | succ k ih =>
    rw [List.replicate_succ, stdevs]
    refine List.mem_cons_of_mem _ ?_
    have hs : (0 : ℚ) < (2 : ℚ) ^ (F.emin + 2 * (k : ℤ)) := two_pos _
    have he : (2 : ℚ) ^ (F.emin + 2 * ((k + 1 : ℕ) : ℤ)) = 4 * (2 : ℚ) ^ (F.emin + 2 * (k : ℤ)) := by
      rw [show F.emin + 2 * ((k + 1 : ℕ) : ℤ) = 2 + (F.emin + 2 * (k : ℤ)) by push_cast; ring, zpow_add₀ (by norm_num)]; norm_num
    have h3 : IsFloat F (3 * (2 : ℚ) ^ (F.emin + 2 * (k : ℤ))) := ⟨3, F.emin + 2 * (k : ℤ), by rw [abs_of_pos (by norm_num)]; linarith, by omega, by norm_num⟩
    have h1 : IsFloat F ((2 : ℚ) ^ (F.emin + 2 * (k : ℤ))) := ⟨1, F.emin + 2 * (k : ℤ), by rw [abs_one]; linarith, by omega, by norm_num⟩
    have hm : modify rnd none none (some (3 / 4)) ((2 : ℚ) ^ (F.emin + 2 * ((k + 1 : ℕ) : ℤ))) 0 = (2 : ℚ) ^ (F.emin + 2 * (k : ℤ)) := by
      simp only [modify]
      rw [he, abs_of_pos (by positivity), show 4 * (2 : ℚ) ^ (F.emin + 2 * (k : ℤ)) * (3 / 4) = 3 * (2 : ℚ) ^ (F.emin + 2 * (k : ℤ)) by ring, h.fix h3,
        show 4 * (2 : ℚ) ^ (F.emin + 2 * (k : ℤ)) - 3 * (2 : ℚ) ^ (F.emin + 2 * (k : ℤ)) = (2 : ℚ) ^ (F.emin + 2 * (k : ℤ)) by ring, h.fix h1, max_eq_right hs.le]
      apply min_eq_left
      apply h.float_le h1
      linarith
    rw [hm]
    exact ih

/-- So in `torch.float32`, from a standard deviation of 1/2, after 75 updates. -/
example (h : Nearest float32 rnd) : 0 ∈ stdevs rnd none none (some (3 / 4)) (1 / 2) (List.replicate 75 0) := by
  have := (C161_violated_stdev h (by norm_num [float32]) 74).2.2
  simpa [float32] using this

/-- Observations that are whole numbers. -/
private theorem running_exact (h : Nearest F rnd) (hp : 1 ≤ F.p) (he : F.emin ≤ 0) (ms : List ℤ) (a q : ℤ) (n : ℕ) (ha : |a| ≤ q) (hq : q + (ms.map (fun m => m * m)).sum ≤ 2 ^ F.p) :
    running rnd (ms.map (fun m : ℤ => (m : ℚ))) (some ⟨a, q, n⟩) = some ⟨((a + ms.sum : ℤ) : ℚ), ((q + (ms.map (fun m => m * m)).sum : ℤ) : ℚ), n + ms.length⟩ := by
  induction ms generalizing a q n with
  | nil => simp [running]
  | cons m ms ih =>
    have hnn : 0 ≤ (ms.map (fun m => m * m)).sum := List.sum_nonneg (by intro x hx; simp only [List.mem_map] at hx; obtain ⟨y, _, rfl⟩ := hx; exact mul_self_nonneg y)
    simp only [List.map_cons, List.sum_cons] at hq
    have hmm : |m| ≤ m * m := by
      rw [← abs_mul_abs_self m]
      rcases Int.lt_or_le 0 |m| with hpos | h0
      · nlinarith
      · have := abs_nonneg m; have : |m| = 0 := by omega
        rw [this]; simp
    have hq0 : 0 ≤ q := le_trans (abs_nonneg a) ha
    have hm0 := mul_self_nonneg m
    have ham : |a + m| ≤ q + m * m := le_trans (abs_add_le a m) (by linarith)
    have r1 : rnd ((a : ℚ) + m) = ((a + m : ℤ) : ℚ) := by
      rw [← Int.cast_add]; exact h.fix (isFloat_int hp he (by linarith))
    have r2 : rnd ((m : ℚ) * m) = ((m * m : ℤ) : ℚ) := by
      rw [← Int.cast_mul]; exact h.fix (isFloat_int hp he (by rw [abs_of_nonneg hm0]; linarith))
    have r3 : rnd ((q : ℚ) + ((m * m : ℤ) : ℚ)) = ((q + m * m : ℤ) : ℚ) := by
      rw [← Int.cast_add]; exact h.fix (isFloat_int hp he (by rw [abs_of_nonneg (by linarith)]; linarith))
    simp only [List.map_cons, running, r1, r2, r3]
    rw [ih (a + m) (q + m * m) (n + 1) ham (by linarith)]
    simp only [List.sum_cons, List.length_cons, add_assoc, Nat.add_comm 1]

/-- **C161.** If all observations are whole numbers and the sum of their squares is at most `2^p` (16777216 in `torch.float32`), the collected sum, sum of squares and count are the exact ones. -/
theorem C161_running_exact (h : Nearest F rnd) (hp : 1 ≤ F.p) (he : F.emin ≤ 0) (ms : List ℤ) (hne : ms ≠ []) (hq : (ms.map (fun m => m * m)).sum ≤ 2 ^ F.p) :
    running rnd (ms.map (fun m : ℤ => (m : ℚ))) none = some ⟨((ms.sum : ℤ) : ℚ), (((ms.map (fun m => m * m)).sum : ℤ) : ℚ), ms.length⟩ := by
  cases ms with
  | nil => exact absurd rfl hne
  | cons m ms =>
    have hnn : 0 ≤ (ms.map (fun m => m * m)).sum := List.sum_nonneg (by intro x hx; simp only [List.mem_map] at hx; obtain ⟨y, _, rfl⟩ := hx; exact mul_self_nonneg y)
    simp only [List.map_cons, List.sum_cons] at hq
    have hm0 := mul_self_nonneg m
    have hmm : |m| ≤ m * m := by
      rw [← abs_mul_abs_self m]
      rcases Int.lt_or_le 0 |m| with hpos | h0
      · nlinarith
      · have := abs_nonneg m; have : |m| = 0 := by omega
        rw [this]; simp
    have r2 : rnd ((m : ℚ) * m) = ((m * m : ℤ) : ℚ) := by
      rw [← Int.cast_mul]; exact h.fix (isFloat_int hp he (by rw [abs_of_nonneg hm0]; linarith))
    simp only [List.map_cons, running, r2]
    rw [running_exact h hp he ms m (m * m) 1 hmm hq]
    simp only [List.sum_cons, List.length_cons, Nat.add_comm 1]

example (h : Nearest float32 rnd) : running rnd [1000, -2000, 3000] none = some ⟨2000, 14000000, 3⟩ := by
  have := C161_running_exact h (by norm_num [float32]) (by norm_num [float32]) [1000, -2000, 3000] (by simp) (by norm_num [float32])
  norm_num at this
  exact this

/-- **C161 (violated).** In `torch.float32`, five observations that are all 3665 have the variance 0, so that the reported one should be `min_variance` (0.01); the rounding of the sum of squares makes it 1. -/
theorem C161_violated_variance (h : Nearest float32 rnd) :
    (running id (List.replicate 5 3665) none).map (variance id (1 / 100)) = some (1 / 100) ∧ (running rnd (List.replicate 5 3665) none).map (variance rnd (1 / 100)) = some 1 := by
  have hint : ∀ m : ℤ, |m| ≤ 2 ^ 24 → rnd (m : ℚ) = m := fun m hm => h.fix (isFloat_int (by norm_num [float32]) (by norm_num [float32]) hm)
  have e1 : rnd (3665 * 3665) = 13432225 := by have := hint 13432225 (by norm_num); norm_num at this ⊢; exact this
  have s2 : rnd (3665 + 3665) = 7330 := by have := hint 7330 (by norm_num); norm_num at this ⊢; exact this
  have s3 : rnd (7330 + 3665) = 10995 := by have := hint 10995 (by norm_num); norm_num at this ⊢; exact this
  have s4 : rnd (10995 + 3665) = 14660 := by have := hint 14660 (by norm_num); norm_num at this ⊢; exact this
  have s5 : rnd (14660 + 3665) = 18325 := by have := hint 18325 (by norm_num); norm_num at this ⊢; exact this
  have q2 : rnd (13432225 + 13432225) = 26864450 := by
    have : rnd (13432225 + 13432225) = ((13432225 : ℤ) : ℚ) * (2 : ℚ) ^ (1 : ℤ) := by apply h.eq_of <;> norm_num [float32]
    rw [this]; norm_num
  have q3 : rnd (26864450 + 13432225) = 40296676 := by
    have : rnd (26864450 + 13432225) = ((10074169 : ℤ) : ℚ) * (2 : ℚ) ^ (2 : ℤ) := by apply h.eq_of <;> norm_num [float32]
    rw [this]; norm_num
  have q4 : rnd (40296676 + 13432225) = 53728900 := by
    have : rnd (40296676 + 13432225) = ((13432225 : ℤ) : ℚ) * (2 : ℚ) ^ (2 : ℤ) := by apply h.eq_of <;> norm_num [float32]
    rw [this]; norm_num
  have q5 : rnd (53728900 + 13432225) = 67161128 := by
    have : rnd (53728900 + 13432225) = ((8395141 : ℤ) : ℚ) * (2 : ℚ) ^ (3 : ℤ) := by apply h.eq_of <;> norm_num [float32]
    rw [this]; norm_num
  have m : rnd (18325 / 5) = 3665 := by have := hint 3665 (by norm_num); norm_num at this ⊢; exact this
  have e : rnd (67161128 / 5) = 13432226 := by
    have : rnd (67161128 / 5) = ((13432226 : ℤ) : ℚ) * (2 : ℚ) ^ (0 : ℤ) := by apply h.eq_of <;> norm_num [float32]
    rw [this]; norm_num
  have d : rnd (13432226 - 13432225) = 1 := by have := hint 1 (by norm_num); norm_num at this ⊢; exact this
  constructor
  · simp only [List.replicate, running, variance, Option.map_some, id]; norm_num
  · have hr : running rnd (List.replicate 5 3665) none = some ⟨18325, 67161128, 5⟩ := by
      simp only [List.replicate, running, e1, s2, s3, s4, s5, q2, q3, q4, q5]
    rw [hr, Option.map_some]
    simp only [variance, Nat.cast_ofNat, m, e, e1, d]
    norm_num

end EvoTorch.Rounding
