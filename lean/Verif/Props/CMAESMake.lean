import Verif.Model.CMAESMake
import Verif.Proofs.CMAES
import Mathlib.Tactic.Linarith
/-!
C156: which problems and arguments `CMAES` accepts.
-/
namespace EvoTorch.CMAES

/-! ### Specification -/

/-- The arguments that the documentation allows for a problem: an unbounded numeric problem, one objective or the index of one, a population
size that is missing or positive, and a center: missing (then the problem must be able to generate solutions), a `Solution`, or a vector of the
length of the solutions. -/
structure Documented (p : Prob) (popsize : Option ℤ) (center : Center) (obj : Option ℤ) : Prop where
  numeric : p.numeric = true
  unbounded : p.bounded = false
  objective : (obj = none ∧ p.objectives = 1) ∨ ∃ i, obj = some i ∧ -(p.objectives : ℤ) ≤ i ∧ i < p.objectives
  popsize : popsize = none ∨ ∃ k, popsize = some k ∧ 0 < k
  center : (center = .missing ∧ p.canFill = true) ∨ center = .solution ∨ center = .array [p.length]

/-! ### Lemmas -/

theorem objIndex_some {p : Prob} {k : ℤ} {i : Nat} :
    objIndex p (some k) = .ok i ↔ -(p.objectives : ℤ) ≤ k ∧ k < p.objectives ∧ (i : ℤ) = if k < 0 then p.objectives + k else k := by
  have key : ∀ j : ℤ, (if j < 0 ∨ (p.objectives : ℤ) ≤ j then (.error .indexError : Except PyErr Nat) else .ok j.toNat) = .ok i ↔
      0 ≤ j ∧ j < p.objectives ∧ (i : ℤ) = j := by
    intro j
    by_cases h : j < 0 ∨ (p.objectives : ℤ) ≤ j
    · rw [if_pos h]
      constructor
      · intro h'; exact absurd h' (by simp)
      · intro h'; omega
    · rw [if_neg h]
      constructor
      · intro h'; have := Except.ok.inj h'; omega
      · intro h'; congr 1; omega
  unfold objIndex
  dsimp only
  by_cases hk : k < 0
  · simp only [if_pos hk]
    rw [key]; omega
  · simp only [if_neg hk]
    rw [key]; omega

theorem objIndex_ok {p : Prob} {obj : Option ℤ} :
    (∃ i, objIndex p obj = .ok i) ↔
      (obj = none ∧ p.objectives = 1) ∨ ∃ i, obj = some i ∧ -(p.objectives : ℤ) ≤ i ∧ i < p.objectives := by
  cases obj with
  | none =>
    unfold objIndex
    by_cases h : p.objectives = 1
    · simp [h]
    · simp [h]
  | some i =>
    constructor
    · rintro ⟨j, h⟩
      obtain ⟨h1, h2, _⟩ := objIndex_some.1 h
      exact .inr ⟨i, rfl, h1, h2⟩
    · rintro (⟨h, _⟩ | ⟨j, hj, h1, h2⟩)
      · exact absurd h (by simp)
      · obtain rfl := Option.some.inj hj
        refine ⟨(if i < 0 then p.objectives + i else i).toNat, objIndex_some.2 ⟨h1, h2, ?_⟩⟩
        split <;> omega

theorem create_ok {p : Prob} {popsize : Option ℤ} {center : Center} {obj : Option ℤ} {r : Nat × Nat} :
    create p popsize center obj = .ok r ↔
      p.numeric = true ∧ p.bounded = false ∧ objIndex p obj = .ok r.1 ∧ settlePopsize p.length popsize = .ok r.2 ∧ p.canFill = true ∧
      (match center with
        | .missing => squeeze [1, p.length] = [p.length]
        | .solution => squeeze [p.length] = [p.length]
        | .array s => squeeze s = [p.length]) := by
  obtain ⟨a, b⟩ := r
  unfold create ensureSuitable
  cases hn : p.numeric
  · simp [bind, Except.bind]
  cases hb : p.bounded
  · cases ho : objIndex p obj with
    | error e => simp [bind, Except.bind]
    | ok i =>
      cases hs : settlePopsize p.length popsize with
      | error e => simp [bind, Except.bind, ho]
      | ok n =>
        cases hf : p.canFill
        · simp [bind, Except.bind, generate, hf, ho]
        · cases center with
          | missing =>
            simp only [bind, Except.bind, generate, hf, ho, centerShape, checkCenter, pure, Except.pure]
            by_cases h : squeeze [1, p.length] = [p.length]
            · simp [h]
            · simp [h]
          | solution =>
            simp only [bind, Except.bind, generate, hf, ho, centerShape, checkCenter, pure, Except.pure]
            by_cases h : squeeze [p.length] = [p.length]
            · simp [h]
            · simp [h]
          | array s =>
            simp only [bind, Except.bind, generate, hf, ho, centerShape, checkCenter, pure, Except.pure]
            by_cases h : squeeze s = [p.length]
            · simp [h]
            · simp [h]
  · simp [bind, Except.bind]

theorem squeeze_single (d : Nat) : squeeze [d] = [d] ↔ d ≠ 1 := by
  by_cases h : d = 1
  · subst h; decide
  · simp [squeeze, h]

theorem squeeze_row (d : Nat) : squeeze [1, d] = [d] ↔ d ≠ 1 := by
  by_cases h : d = 1
  · subst h; decide
  · simp [squeeze, h]

/-! ### C156 -/

/-- **C156.** Documented arguments are accepted if solutions have two or more elements and the problem can generate solutions; the search has
the given population size, or `4 + floor(3 ln d)`, and the objective that was asked for. -/
theorem C156_accepted_partial (p : Prob) (popsize : Option ℤ) (center : Center) (obj : Option ℤ)
    (h : Documented p popsize center obj) (hd : p.length ≠ 1) (hf : p.canFill = true) :
    ∃ i n, create p popsize center obj = .ok (i, n) ∧
      (∀ k : ℤ, obj = some k → (i : ℤ) = if k < 0 then p.objectives + k else k) ∧ i < p.objectives ∧
      (∀ k : ℤ, popsize = some k → (n : ℤ) = k) ∧
      (popsize = none → (n : ℝ) ≤ 4 + 3 * Real.log p.length ∧ 4 + 3 * Real.log p.length < n + 1) := by
  obtain ⟨i, hi⟩ := objIndex_ok.2 h.objective
  have hn : ∃ n, settlePopsize p.length popsize = .ok n ∧ (∀ k : ℤ, popsize = some k → (n : ℤ) = k) ∧
      (popsize = none → (n : ℝ) ≤ 4 + 3 * Real.log p.length ∧ 4 + 3 * Real.log p.length < n + 1) := by
    rcases h.popsize with rfl | ⟨k, rfl, hk⟩
    · refine ⟨_, rfl, by simp, fun _ => ?_⟩
      have hl : 0 ≤ 3 * Real.log p.length := mul_nonneg (by norm_num) (Real.log_natCast_nonneg _)
      have h1 := Nat.floor_le hl
      have h2 := Nat.lt_floor_add_one (3 * Real.log p.length)
      unfold defaultPopsize
      push_cast
      constructor <;> linarith
    · refine ⟨k.toNat, ?_, ?_, by simp⟩
      · unfold settlePopsize
        simp only
        rw [if_neg (by omega), if_neg (by omega)]
      · intro k' hk'
        obtain rfl := Option.some.inj hk'
        omega
  obtain ⟨n, hn, hn1, hn2⟩ := hn
  refine ⟨i, n, create_ok.2 ⟨h.numeric, h.unbounded, hi, hn, hf, ?_⟩, ?_, ?_, hn1, hn2⟩
  · rcases h.center with ⟨rfl, _⟩ | rfl | rfl
    · exact (squeeze_row _).2 hd
    · exact (squeeze_single _).2 hd
    · exact (squeeze_single _).2 hd
  · intro k hk
    subst hk
    exact (objIndex_some.1 hi).2.2
  · rcases h.objective with ⟨rfl, h1⟩ | ⟨k, rfl, h1, h2⟩
    · unfold objIndex at hi
      simp only [h1, if_true] at hi
      have := (Except.ok.inj hi).symm; omega
    · have := (objIndex_some.1 hi).2.2
      split at this <;> omega

/-- Documented arguments: three variables, two objectives. -/
example : Documented ⟨true, false, 2, 3, true⟩ (some 20) (.array [3]) (some (-1)) :=
  ⟨rfl, rfl, .inr ⟨-1, rfl, by decide, by decide⟩, .inr ⟨20, rfl, by decide⟩, .inr (.inr rfl)⟩

/-- **C156.** What is refused: problems of objects, bounded problems, missing or wrong indices of objectives, negative population sizes, and
centers of another length. -/
theorem C156_refused (p : Prob) (popsize : Option ℤ) (center : Center) (obj : Option ℤ)
    (h : p.numeric = false ∨ p.bounded = true ∨ (obj = none ∧ p.objectives ≠ 1) ∨
      (∃ i, obj = some i ∧ (i < -(p.objectives : ℤ) ∨ (p.objectives : ℤ) ≤ i)) ∨ (∃ k, popsize = some k ∧ k < 0) ∨
      (∃ m, center = .array [m] ∧ m ≠ p.length)) :
    ∃ e, create p popsize center obj = .error e := by
  cases hc : create p popsize center obj with
  | error e => exact ⟨e, rfl⟩
  | ok r =>
    obtain ⟨h1, h2, h3, h4, h5, h6⟩ := create_ok.1 hc
    exfalso
    rcases h with h | h | ⟨rfl, h⟩ | ⟨i, rfl, h⟩ | ⟨k, rfl, h⟩ | ⟨m, rfl, h⟩
    · rw [h] at h1; exact absurd h1 (by simp)
    · rw [h] at h2; exact absurd h2 (by simp)
    · unfold objIndex at h3; rw [if_neg h] at h3; exact absurd h3 (by simp)
    · rcases objIndex_ok.1 ⟨_, h3⟩ with ⟨h', _⟩ | ⟨j, hj, _, _⟩
      · exact absurd h' (by simp)
      · obtain rfl := Option.some.inj hj; omega
    · unfold settlePopsize at h4
      simp only at h4
      rw [if_neg (by omega), if_pos h] at h4
      exact absurd h4 (by simp)
    · dsimp only at h6
      unfold squeeze at h6
      by_cases hm : m = 1
      · subst hm; simp at h6
      · simp [hm] at h6; exact h h6

/-- **C156 (violation).** Problems with one variable are refused, whatever the other arguments, also those that are documented. -/
theorem C156_violated_one_variable (p : Prob) (hp : p.length = 1) (popsize : Option ℤ) (center : Center) (obj : Option ℤ) :
    (∃ e, create p popsize center obj = .error e) ∧
    (Documented p popsize center obj → p.canFill = true → create p popsize center obj = .error .valueError) := by
  have hsq : ∀ s, squeeze s ≠ [1] := by
    intro s h
    have : (1 : Nat) ∈ squeeze s := by rw [h]; simp
    unfold squeeze at this
    have := (List.mem_filter.1 this).2
    simp at this
  have hno : ∀ r, create p popsize center obj ≠ .ok r := by
    intro r hr
    obtain ⟨_, _, _, _, _, h6⟩ := create_ok.1 hr
    rw [hp] at h6
    cases center
    · exact hsq _ h6
    · exact hsq _ h6
    · exact hsq _ h6
  constructor
  · cases hc : create p popsize center obj with
    | error e => exact ⟨e, rfl⟩
    | ok r => exact absurd hc (hno r)
  · intro h hf
    obtain ⟨i, hi⟩ := objIndex_ok.2 h.objective
    have hn : ∃ n, settlePopsize p.length popsize = .ok n := by
      rcases h.popsize with rfl | ⟨k, rfl, hk⟩
      · exact ⟨_, rfl⟩
      · refine ⟨k.toNat, ?_⟩
        unfold settlePopsize
        simp only
        rw [if_neg (by omega), if_neg (by omega)]
    obtain ⟨n, hn⟩ := hn
    unfold create ensureSuitable
    have hs : ∃ s, centerShape p center = .ok s := by
      cases center with
      | missing => exact ⟨[1, p.length], by simp [centerShape, generate, hf, bind, Except.bind, pure, Except.pure]⟩
      | solution => exact ⟨_, rfl⟩
      | array s => exact ⟨_, rfl⟩
    obtain ⟨s, hs⟩ := hs
    have hck : checkCenter p.length s = .error .valueError := by
      unfold checkCenter; rw [hp, if_neg (hsq s)]
    simp [h.numeric, h.unbounded, bind, Except.bind, hi, hn, generate, hf, hs, hck]

/-- **C156 (violation).** A problem that cannot generate solutions is refused even if the center is given. -/
theorem C156_violated_given_center (p : Prob) (hf : p.canFill = false) (popsize : Option ℤ) (center : Center) (obj : Option ℤ)
    (h : Documented p popsize center obj) : create p popsize center obj = .error .runtimeError := by
  obtain ⟨i, hi⟩ := objIndex_ok.2 h.objective
  have hn : ∃ n, settlePopsize p.length popsize = .ok n := by
    rcases h.popsize with rfl | ⟨k, rfl, hk⟩
    · exact ⟨_, rfl⟩
    · refine ⟨k.toNat, ?_⟩
      unfold settlePopsize
      simp only
      rw [if_neg (by omega), if_neg (by omega)]
  obtain ⟨n, hn⟩ := hn
  unfold create ensureSuitable
  simp [h.numeric, h.unbounded, bind, Except.bind, hi, hn, generate, hf]

example : Documented ⟨true, false, 1, 3, false⟩ none (.array [3]) none :=
  ⟨rfl, rfl, .inl ⟨rfl, rfl⟩, .inl rfl, .inr (.inr rfl)⟩

/-- **C156 (violation).** A population size of 1 is accepted, although the search is then not defined: it selects `mu = 0` parents, so
`mu_eff`, from which the learning rates are made, is the quotient of two empty sums. From 2 on both sums are positive, and at least one
parent is selected. -/
theorem C156_violated_popsize_one (p : Prob) (center : Center) (obj : Option ℤ) (h : Documented p (some 1) center obj)
    (hd : p.length ≠ 1) (hf : p.canFill = true) :
    (∃ i, create p (some 1) center obj = .ok (i, 1)) ∧
    mu 1 = 0 ∧ sumPos 1 id (rawWeight 1) = 0 ∧ sumPos 1 (· ^ 2) (rawWeight 1) = 0 ∧
    ∀ n, 2 ≤ n → 1 ≤ mu n ∧ 0 < sumPos n id (rawWeight n) ∧ 0 < sumPos n (· ^ 2) (rawWeight n) := by
  obtain ⟨i, n, hc, -, -, hn, -⟩ := C156_accepted_partial p _ center obj h hd hf
  have := hn 1 rfl
  have hn1 : n = 1 := by omega
  subst hn1
  refine ⟨⟨i, hc⟩, rfl, by simp [sumPos, mu], by simp [sumPos, mu], fun n hn => ⟨by unfold mu; omega, sumPos_pos hn, sumPosSq_pos hn⟩⟩

end EvoTorch.CMAES
