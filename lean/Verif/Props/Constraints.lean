import Verif.Model.Constraints
/-! Property C67: constraint violations, penalties and log barriers. -/
namespace EvoTorch.Constraints
open EvoTorch

/-! ### Specification -/

/-- The constraint `a op b` holds. -/
def Holds (a : ℝ) : Cmp → ℝ → Prop
  | .ge, b => a ≥ b
  | .le, b => a ≤ b
  | .eq, b => a = b
  | .unknown, _ => False

/-- The amount by which the constraint fails, if it fails. -/
noncomputable def excess (a : ℝ) : Cmp → ℝ → ℝ
  | .ge, b => b - a
  | .le, b => a - b
  | .eq, b => |a - b|
  | .unknown, _ => 0

theorem relu_fin (x : ℝ) : relu (.fin x) = .fin (max x 0) := by
  simp only [relu, Flt.max2, Flt.lt, decide_eq_true_eq]
  split
  · rename_i h; rw [max_eq_right h.le]
  · rename_i h; rw [max_eq_left (not_lt.1 h)]

theorem abs_fin (x : ℝ) : Flt.abs (.fin x) = .fin |x| := by
  simp only [Flt.abs]
  split
  · rename_i h; rw [abs_of_neg h]
  · rename_i h; rw [abs_of_nonneg (not_lt.1 h)]

/-- **C67.** For finite numbers and a known operator, `violation` returns a number `v ≥ 0` which is zero exactly if the constraint holds,
and otherwise is the amount by which it fails. -/
theorem C67_violation (a b : ℝ) (c : Cmp) (hc : c ≠ .unknown) :
    ∃ v : ℝ, violation (.fin a) c (.fin b) = .ok (.fin v) ∧ 0 ≤ v ∧ (v = 0 ↔ Holds a c b) ∧ (¬ Holds a c b → v = excess a c b ∧ 0 < v) := by
  cases c with
  | unknown => exact absurd rfl hc
  | ge =>
    refine ⟨max (b - a) 0, by simp [violation, Flt.sub, relu_fin], le_max_right _ _, ?_, ?_⟩
    · simp [Holds]
    · intro h
      have h' : a < b := not_le.1 h
      have : 0 < b - a := sub_pos.2 h'
      exact ⟨by simp [excess, this.le], lt_of_lt_of_le this (le_max_left _ _)⟩
  | le =>
    refine ⟨max (a - b) 0, by simp [violation, Flt.sub, relu_fin], le_max_right _ _, ?_, ?_⟩
    · simp [Holds]
    · intro h
      have h' : b < a := not_le.1 h
      have : 0 < a - b := sub_pos.2 h'
      exact ⟨by simp [excess, this.le], lt_of_lt_of_le this (le_max_left _ _)⟩
  | eq =>
    refine ⟨|a - b|, by simp [violation, Flt.sub, abs_fin], abs_nonneg _, ?_, ?_⟩
    · simp [Holds, sub_eq_zero]
    · intro h
      exact ⟨rfl, abs_pos.2 (sub_ne_zero.2 h)⟩

/-- **C67.** An unknown operator is refused. -/
theorem C67_unknown_operator (a b : Flt ℝ) (s : Sign) (l st : ℝ) (e : Option ℝ) (i : Flt ℝ) :
    violation a .unknown b = .error .valueError ∧ penalty a .unknown b s l st e i = .error .valueError ∧
    (∀ sh, logBarrier a .unknown b sh s i = .error .valueError ∧ logBarrier a .eq b sh s i = .error .valueError) := by
  simp [violation, penalty, logBarrier, barrierInput, Except.bind]

/-- The amount of penalty for a violation `v`: linear, step, and power up to a limit. -/
noncomputable def amount (linear step : ℝ) (exp : Option ℝ) (limit : Option ℝ) (v : ℝ) : ℝ :=
  linear * v + (if 0 < v then step else 0) + exp.elim 0 fun p => limit.elim (v ^ p) fun m => min (v ^ p) m

/-- The argument `exp_inf`: omitted means infinity. -/
noncomputable def expInfOf (limit : Option ℝ) : Flt ℝ := limit.elim .pinf .fin

theorem pow_fin (v p : ℝ) (hp : 0 < p) : pow (.fin v) p = .fin (v ^ p) := by
  unfold pow
  rw [if_neg hp.ne']
  by_cases h : v = 0
  · simp [h, hp, Real.zero_rpow hp.ne']
  · simp [h]

theorem penalty_plus (a b : ℝ) (c : Cmp) (v : ℝ) (hv : violation (.fin a) c (.fin b) = .ok (.fin v)) (h0 : 0 ≤ v) (linear step : ℝ)
    (exp : Option ℝ) (hp : ∀ p ∈ exp, 0 < p) (limit : Option ℝ) :
    penalty (.fin a) c (.fin b) .plus linear step exp (expInfOf limit) = .ok (.fin (amount linear step exp limit v)) ∧
    penalty (.fin a) c (.fin b) .minus linear step exp (expInfOf limit) = .ok (.fin (-amount linear step exp limit v)) := by
  have key : ∀ s, penalty (.fin a) c (.fin b) s linear step exp (expInfOf limit) = (match s with
      | .plus => .ok (.fin (amount linear step exp limit v))
      | .minus => .ok (Flt.neg (.fin (amount linear step exp limit v)))
      | .unknown => .error .valueError : Except PyErr (Flt ℝ)) := by
    intro s
    have hstep : whereF (Flt.lt (.fin 0) (.fin v)) (.fin step) (.fin 0) = .fin (if 0 < v then step else 0) := by
      simp only [whereF, Flt.lt, decide_eq_true_eq]; split <;> rfl
    have hexp : whereF exp.isSome (whereF (Flt.lt (expInfOf limit) (pow (.fin v) (exp.getD 0))) (expInfOf limit) (pow (.fin v) (exp.getD 0))) (.fin 0) =
        .fin (exp.elim 0 fun p => limit.elim (v ^ p) fun m => min (v ^ p) m) := by
      cases exp with
      | none => simp [whereF]
      | some p =>
        have hp' := hp p rfl
        simp only [Option.isSome, Option.getD, Option.elim, pow_fin v p hp']
        cases limit with
        | none => simp [whereF, expInfOf, Flt.lt]
        | some m =>
          simp only [whereF, expInfOf, Option.elim, Flt.lt, decide_eq_true_eq, if_true]
          by_cases hm : m < v ^ p
          · rw [if_pos hm, min_eq_right hm.le]
          · rw [if_neg hm, min_eq_left (not_lt.1 hm)]
    simp only [penalty, hv, Except.bind, hstep, hexp, Flt.mul, Flt.add, amount]
    cases s <;> rfl
  refine ⟨key .plus, ?_⟩
  rw [key .minus]; rfl

/-- The multipliers are sensible: nothing negative, and a positive exponent. -/
structure Sensible (linear step : ℝ) (exp limit : Option ℝ) : Prop where
  linear : 0 ≤ linear
  step : 0 ≤ step
  exp : ∀ p ∈ exp, 0 < p
  limit : ∀ m ∈ limit, 0 ≤ m

theorem amount_nonneg {linear step : ℝ} {exp limit : Option ℝ} (h : Sensible linear step exp limit) {v : ℝ} (hv : 0 ≤ v) :
    0 ≤ amount linear step exp limit v := by
  unfold amount
  refine add_nonneg (add_nonneg (mul_nonneg h.linear hv) ?_) ?_
  · split
    · exact h.step
    · exact le_rfl
  · cases exp with
    | none => exact le_rfl
    | some p =>
      cases hl : limit with
      | none => exact Real.rpow_nonneg hv p
      | some m => exact le_min (Real.rpow_nonneg hv p) (h.limit m hl)

theorem amount_mono {linear step : ℝ} {exp limit : Option ℝ} (h : Sensible linear step exp limit) {v w : ℝ} (hv : 0 ≤ v) (hw : v ≤ w) :
    amount linear step exp limit v ≤ amount linear step exp limit w := by
  unfold amount
  refine add_le_add (add_le_add (mul_le_mul_of_nonneg_left hw h.linear) ?_) ?_
  · by_cases h1 : 0 < v
    · rw [if_pos h1, if_pos (lt_of_lt_of_le h1 hw)]
    · rw [if_neg h1]; split
      · exact h.step
      · exact le_rfl
  · cases he : exp with
    | none => exact le_rfl
    | some p =>
      have := Real.rpow_le_rpow hv hw (h.exp p he).le
      cases limit with
      | none => exact this
      | some m => exact min_le_min this le_rfl

/-- **C67.** With sensible multipliers, the penalty of a satisfied constraint is zero, a violation is never rewarded (`P ≥ 0`, and what is returned is
`P` for `'+'` and `-P` for `'-'`), it is really penalised if any component is switched on, and a larger violation (of any constraint) is
penalised at least as much. -/
theorem C67_penalty (linear step : ℝ) (exp limit : Option ℝ) (hs : Sensible linear step exp limit) :
    ∃ P : ℝ → ℝ, P 0 = 0 ∧ (∀ v, 0 ≤ v → 0 ≤ P v) ∧ (∀ v w, 0 ≤ v → v ≤ w → P v ≤ P w) ∧
      (∀ v, 0 < v → (0 < linear ∨ 0 < step ∨ (exp ≠ none ∧ ∀ m ∈ limit, 0 < m)) → 0 < P v) ∧
      ∀ (a b : ℝ) (c : Cmp), c ≠ .unknown → ∃ v : ℝ, 0 ≤ v ∧ (v = 0 ↔ Holds a c b) ∧ (¬ Holds a c b → v = excess a c b) ∧
        penalty (.fin a) c (.fin b) .plus linear step exp (expInfOf limit) = .ok (.fin (P v)) ∧
        penalty (.fin a) c (.fin b) .minus linear step exp (expInfOf limit) = .ok (.fin (-P v)) := by
  refine ⟨amount linear step exp limit, ?_, fun v hv => amount_nonneg hs hv, fun v w hv hw => amount_mono hs hv hw, ?_, ?_⟩
  · unfold amount
    have : (exp.elim 0 fun p => limit.elim ((0 : ℝ) ^ p) fun m => min ((0 : ℝ) ^ p) m) = 0 := by
      cases he : exp with
      | none => rfl
      | some p =>
        have hz : (0 : ℝ) ^ p = 0 := Real.zero_rpow (hs.exp p he).ne'
        cases hl : limit with
        | none => exact hz
        | some m => simp only [Option.elim, hz]; exact min_eq_left (hs.limit m hl)
    rw [this]; simp
  · intro v hv hon
    have hrest : 0 ≤ exp.elim 0 fun p => limit.elim (v ^ p) fun m => min (v ^ p) m := by
      cases exp with
      | none => exact le_rfl
      | some p =>
        cases hl : limit with
        | none => exact Real.rpow_nonneg hv.le p
        | some m => exact le_min (Real.rpow_nonneg hv.le p) (hs.limit m hl)
    unfold amount
    rw [if_pos hv]
    rcases hon with h | h | ⟨h1, h2⟩
    · have := mul_pos h hv
      have := hs.step
      linarith
    · have := mul_nonneg hs.linear hv.le
      linarith
    · have hp : 0 < exp.elim 0 fun p => limit.elim (v ^ p) fun m => min (v ^ p) m := by
        cases exp with
        | none => exact absurd rfl h1
        | some p =>
          cases hl : limit with
          | none => exact Real.rpow_pos_of_pos hv p
          | some m => exact lt_min (Real.rpow_pos_of_pos hv p) (h2 m hl)
      have := mul_nonneg hs.linear hv.le
      have := hs.step
      linarith
  · intro a b c hc
    obtain ⟨v, h1, h2, h3, h4⟩ := C67_violation a b c hc
    obtain ⟨p1, p2⟩ := penalty_plus a b c v h1 h2 linear step exp hs.exp limit
    exact ⟨v, h2, h3, fun h => (h4 h).1, p1, p2⟩

example : Sensible 2 1 (some 3) (some 100) := ⟨by norm_num, by norm_num, by simp, by simp⟩

/-! ### Log barrier -/

/-- How far the constraint is from being violated. -/
noncomputable def slack (a : ℝ) : Cmp → ℝ → ℝ
  | .ge, b => a - b
  | .le, b => b - a
  | _, _ => 0

/-- **C67.** With a positive sharpness and a clip value `M`, the log barrier (sign `'-'`) is `max (log slack / sharpness) (-M)` where there is slack, and
`-M` where there is none (the constraint is violated or just satisfied); it is never below `-M` and never decreases as the slack grows;
with sign `'+'` it is the negation. -/
theorem C67_log_barrier (sh M : ℝ) (hsh : 0 < sh) :
    ∃ B : ℝ → ℝ, (∀ x, 0 < x → B x = max (Real.log x / sh) (-M)) ∧ (∀ x, x ≤ 0 → B x = -M) ∧ (∀ x, -M ≤ B x) ∧ Monotone B ∧
      ∀ (a b : ℝ) (c : Cmp), (c = .ge ∨ c = .le) →
        logBarrier (.fin a) c (.fin b) sh .minus (.fin M) = .ok (.fin (B (slack a c b))) ∧
        logBarrier (.fin a) c (.fin b) sh .plus (.fin M) = .ok (.fin (-B (slack a c b))) := by
  refine ⟨fun x => if 0 < x then max (Real.log x / sh) (-M) else -M, ?_, ?_, ?_, ?_, ?_⟩
  · intro x hx; simp [hx]
  · intro x hx; simp [not_lt.2 hx]
  · intro x; dsimp only; split
    · exact le_max_right _ _
    · exact le_rfl
  · intro x y hxy
    dsimp only
    by_cases hx : 0 < x
    · rw [if_pos hx, if_pos (lt_of_lt_of_le hx hxy)]
      exact max_le_max (div_le_div_of_nonneg_right (Real.log_le_log hx hxy) hsh.le) le_rfl
    · rw [if_neg hx]; split
      · exact le_max_right _ _
      · exact le_rfl
  · have key : ∀ x : ℝ, whereF (Flt.lt (divPos (log (relu (.fin x))) sh) (Flt.neg (.fin M))) (Flt.neg (.fin M)) (divPos (log (relu (.fin x))) sh) =
        .fin (if 0 < x then max (Real.log x / sh) (-M) else -M) := by
      intro x
      rw [relu_fin]
      by_cases hx : 0 < x
      · rw [max_eq_left hx.le, if_pos hx]
        simp only [log, hx.ne', if_false, not_lt.2 hx.le, divPos, Flt.neg, Flt.lt, whereF, decide_eq_true_eq]
        by_cases h : Real.log x / sh < -M
        · rw [if_pos h, max_eq_right h.le]
        · rw [if_neg h, max_eq_left (not_lt.1 h)]
      · rw [max_eq_right (not_lt.1 hx), if_neg hx]
        simp [log, divPos, Flt.neg, Flt.lt, whereF]
    intro a b c hc
    rcases hc with rfl | rfl
    · simp only [logBarrier, barrierInput, Except.bind, Flt.sub, key, slack]
      exact ⟨rfl, rfl⟩
    · simp only [logBarrier, barrierInput, Except.bind, Flt.sub, key, slack]
      exact ⟨rfl, rfl⟩

/-- **C67.** Without a clip value, the barrier is infinite where there is no slack. -/
theorem C67_log_barrier_infinite (a b sh : ℝ) (h : a ≤ b) :
    logBarrier (.fin a) .ge (.fin b) sh .minus .pinf = .ok .ninf ∧ logBarrier (.fin a) .ge (.fin b) sh .plus .pinf = .ok .pinf := by
  have h1 : relu (Flt.sub (.fin a) (.fin b)) = .fin 0 := by
    rw [Flt.sub, relu_fin, max_eq_right (sub_nonpos.2 h)]
  simp [logBarrier, barrierInput, h1, log, divPos, whereF, Flt.neg, Flt.lt, Except.bind]

example : (0 : ℝ) < 1 ∧ slack 5 .ge 2 = 3 := ⟨by norm_num, by simp only [slack]; norm_num⟩

/-! ### Where the full property fails -/

/-- **C67, outside the finite range** (infinite values). `inf <= inf` holds, but its violation is NaN. -/
theorem C67_equal_infinities_counterexample : violation .pinf .le .pinf = .ok .nan ∧ violation .pinf .ge .pinf = .ok .nan ∧
    violation .pinf .eq .pinf = .ok .nan := by
  simp [violation, Flt.sub, relu, Flt.max2, Flt.abs]

/-- **C67, outside the finite range** (infinite values). An infinite violation gives a NaN penalty if the linear component is left out (zero times infinity),
whatever the step. -/
theorem C67_infinite_violation_counterexample (b step : ℝ) (s : Sign) (hs : s ≠ .unknown) (e : Option ℝ) (i : Flt ℝ) :
    penalty .pinf .le (.fin b) s 0 step e i = .ok .nan := by
  have h : violation .pinf .le (.fin b) = .ok .pinf := by simp [violation, Flt.sub, relu, Flt.max2, Flt.lt]
  cases s <;> simp_all [penalty, Except.bind, Flt.mul, Flt.add, Flt.neg]

/-- **C67, outside the finite range** (exponents which are not positive). With `exp = 0` a satisfied constraint is penalised. -/
theorem C67_exponent_zero_counterexample (a b : ℝ) (h : a ≤ b) : penalty (.fin a) .le (.fin b) .minus 0 0 (some 0) .pinf = .ok (.fin (-1)) := by
  have h1 : violation (.fin a) .le (.fin b) = .ok (.fin 0) := by
    simp only [violation, Flt.sub, relu_fin, max_eq_right (sub_nonpos.2 h)]
  simp [penalty, h1, Except.bind, Flt.mul, Flt.add, Flt.neg, pow, whereF, Flt.lt]

end EvoTorch.Constraints
