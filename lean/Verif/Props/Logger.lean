import Verif.Model.Logger
import Mathlib.Tactic.Common
/-!
C42 (loggers fire at their interval) and C43 (`PicklingLogger` saves).
-/
namespace EvoTorch.Logger

/-- The state of a logger after `t` calls. -/
def afterCalls (l : Logger) : Nat → Logger
  | 0 => l
  | t + 1 => (call (afterCalls l t)).state

/-- Specification: logger with interval `m` logs at its `t`-th step, `t = 1, 2, …`. -/
def Due (m : Int) (afterFirst : Bool) (t : Nat) : Prop := if afterFirst then m ∣ ((t : Int) - 1) else m ∣ (t : Int)

theorem afterCalls_eq (l : Logger) (t : Nat) : afterCalls l t = { l with stepsCount := l.stepsCount + t } := by
  induction t with
  | zero => rfl
  | succ t ih => simp only [afterCalls, ih, call]; split <;> simp [Nat.add_assoc]

theorem fmod_eq_zero_iff (n m : Int) : Int.fmod n m = 0 ↔ m ∣ n :=
  (Int.dvd_iff_fmod_eq_zero (a := m) (b := n)).symm

theorem call_due (l : Logger) (hm : l.interval ≠ 0) :
    ∃ b, (call l).result = .ok b ∧ (b = true ↔ Due l.interval l.afterFirstStep (l.stepsCount + 1)) := by
  unfold call
  simp only [hm, if_false]
  refine ⟨_, rfl, ?_⟩
  rw [decide_eq_true_iff, fmod_eq_zero_iff]
  unfold Due
  cases l.afterFirstStep <;> simp

/-- C42: whatever its (non-zero) interval, a new logger logs at its `t`-th step (`t = 1, 2, …`) exactly if `t` is a multiple of the interval; with
`after_first_step`, exactly if `t - 1` is. -/
theorem C42_interval (interval : Int) (afterFirst : Bool) (hm : interval ≠ 0) (t : Nat) (ht : 1 ≤ t) :
    ∃ b, (call (afterCalls ⟨interval, afterFirst, 0⟩ (t - 1))).result = .ok b ∧ (b = true ↔ Due interval afterFirst t) := by
  rw [afterCalls_eq]
  obtain ⟨b, h1, h2⟩ := call_due ⟨interval, afterFirst, 0 + (t - 1)⟩ hm
  refine ⟨b, h1, ?_⟩
  rw [h2]
  have : 0 + (t - 1) + 1 = t := by omega
  simp only [this]

/-- C42 in the words of the property, for positive intervals: steps `m, 2m, 3m, …`, or `1, m+1, 2m+1, …`. -/
theorem C42_steps (m : Nat) (hm : 1 ≤ m) (t : Nat) (ht : 1 ≤ t) :
    (Due m false t ↔ ∃ j, 1 ≤ j ∧ t = j * m) ∧ (Due m true t ↔ ∃ j, t = j * m + 1) := by
  constructor
  · simp only [Due, Bool.false_eq_true, if_false]
    rw [Int.natCast_dvd_natCast]
    constructor
    · rintro ⟨j, rfl⟩
      refine ⟨j, ?_, Nat.mul_comm _ _⟩
      cases j with
      | zero => omega
      | succ j => omega
    · rintro ⟨j, _, rfl⟩; exact Nat.dvd_mul_left _ _
  · simp only [Due, if_true]
    have : ((t : Int) - 1) = ((t - 1 : Nat) : Int) := by omega
    rw [this, Int.natCast_dvd_natCast]
    constructor
    · rintro ⟨j, hj⟩; exact ⟨j, by rw [Nat.mul_comm] at hj; omega⟩
    · rintro ⟨j, hj⟩; exact ⟨j, by rw [Nat.mul_comm]; omega⟩

/-- An interval of zero raises at the first step. -/
theorem C42_zero_interval (afterFirst : Bool) : (call ⟨0, afterFirst, 0⟩).result = .error .zeroDivisionError := by simp [call]

example : (List.range 7).map (fun t => (call (afterCalls ⟨3, false, 0⟩ t)).result) =
    [.ok false, .ok false, .ok true, .ok false, .ok false, .ok true, .ok false] := by rfl
example : (List.range 7).map (fun t => (call (afterCalls ⟨3, true, 0⟩ t)).result) =
    [.ok true, .ok false, .ok false, .ok true, .ok false, .ok false, .ok true] := by rfl
example : ∃ b, (call (afterCalls ⟨3, false, 0⟩ (6 - 1))).result = .ok b ∧ (b = true ↔ Due 3 false 6) := C42_interval 3 false (by decide) 6 (by decide)

/-! ### C43 -/

/-- Specification of what a history of steps and runs should save, when the algorithm had made `start` steps when the logger was attached and has now made `now`:
the generations at which the logger is due, and the last generation of each run. -/
def Wanted (start : Nat) (m : Int) (afterFirst : Bool) (g : Nat) : Nat → List Op → Prop
  | _, [] => False
  | now, .step :: ops => (g = now + 1 ∧ Due m afterFirst (g - start)) ∨ Wanted start m afterFirst g (now + 1) ops
  | now, .run n :: ops => (now < g ∧ g ≤ now + n.toNat ∧ Due m afterFirst (g - start)) ∨ g = now + n.toNat ∨ Wanted start m afterFirst g (now + n.toNat) ops

/-- Number of steps of a history. -/
def totalSteps : List Op → Nat
  | [] => 0
  | .step :: ops => 1 + totalSteps ops
  | .run n :: ops => n.toNat + totalSteps ops

structure Inv (start : Nat) (m : Int) (afterFirst : Bool) (s : Pickling) : Prop where
  sorted : s.saved.Pairwise (· < ·)
  le : ∀ g ∈ s.saved, g ≤ s.stepCount
  last : s.lastGeneration = s.saved.getLast?
  logger : s.logger = ⟨m, afterFirst, s.stepCount - start⟩
  start : start ≤ s.stepCount

theorem save_inv {start : Nat} {m : Int} {af : Bool} {s : Pickling} (h : Inv start m af s) (hlt : ∀ g ∈ s.saved, g < s.stepCount) : Inv start m af (save s) := by
  refine ⟨?_, ?_, by simp [save], h.logger, h.start⟩
  · simp only [save, List.pairwise_append, h.sorted, List.pairwise_singleton, true_and]
    intro a ha b hb
    simp at hb; subst hb
    exact hlt a ha
  · intro g hg
    simp only [save, List.mem_append, List.mem_singleton] at hg ⊢
    rcases hg with hg | rfl
    · exact h.le g hg
    · exact Nat.le_refl _

theorem step_inv {start : Nat} {m : Int} {af : Bool} {s : Pickling} (hm : m ≠ 0) (h : Inv start m af s) :
    (step s).result = .ok () ∧ Inv start m af (step s).state ∧ (step s).state.stepCount = s.stepCount + 1 ∧
      ∀ g, g ∈ (step s).state.saved ↔ g ∈ s.saved ∨ (g = s.stepCount + 1 ∧ Due m af (g - start)) := by
  obtain ⟨b, hb, hbd⟩ := call_due s.logger (by rw [h.logger]; exact hm)
  have hst : (call s.logger).state = { s.logger with stepsCount := s.logger.stepsCount + 1 } := by unfold call; simp only; split <;> rfl
  rw [h.logger] at hbd
  simp only at hbd
  have hs := h.start
  have hcount : s.stepCount - start + 1 = s.stepCount + 1 - start := by omega
  rw [hcount] at hbd
  have base : Inv start m af { s with stepCount := s.stepCount + 1, logger := (call s.logger).state } := by
    refine ⟨h.sorted, fun g hg => Nat.le_succ_of_le (h.le g hg), h.last, ?_, by simp only; omega⟩
    show (call s.logger).state = _
    rw [hst]
    simp only [h.logger]
    rw [hcount]
  unfold step
  simp only [hb]
  cases b with
  | true =>
    simp only
    refine ⟨trivial, save_inv base fun g hg => Nat.lt_succ_of_le (h.le g hg), rfl, fun g => ?_⟩
    simp only [save, List.mem_append, List.mem_singleton]
    constructor
    · rintro (hg | rfl)
      · exact Or.inl hg
      · exact Or.inr ⟨rfl, hbd.mp rfl⟩
    · rintro (hg | ⟨rfl, _⟩)
      · exact Or.inl hg
      · exact Or.inr rfl
  | false =>
    simp only
    refine ⟨trivial, base, trivial, fun g => ?_⟩
    constructor
    · exact Or.inl
    · rintro (hg | ⟨rfl, hd⟩)
      · exact hg
      · exact absurd (hbd.mpr hd) (by simp)

theorem steps_inv {start : Nat} {m : Int} {af : Bool} (hm : m ≠ 0) (n : Nat) (s : Pickling) (h : Inv start m af s) :
    (steps n s).result = .ok () ∧ Inv start m af (steps n s).state ∧ (steps n s).state.stepCount = s.stepCount + n ∧
      ∀ g, g ∈ (steps n s).state.saved ↔ g ∈ s.saved ∨ (s.stepCount < g ∧ g ≤ s.stepCount + n ∧ Due m af (g - start)) := by
  induction n generalizing s with
  | zero => exact ⟨rfl, h, rfl, fun g => ⟨Or.inl, fun h => h.elim id fun ⟨h1, h2, _⟩ => by omega⟩⟩
  | succ n ih =>
    obtain ⟨h1, h2, h3, h4⟩ := step_inv hm h
    obtain ⟨i1, i2, i3, i4⟩ := ih _ h2
    rw [steps]
    simp only [h1]
    refine ⟨i1, i2, by rw [i3, h3]; omega, fun g => ?_⟩
    rw [i4, h4, h3]
    constructor
    · rintro ((hg | ⟨rfl, hd⟩) | ⟨ha, hb, hd⟩)
      · exact Or.inl hg
      · exact Or.inr ⟨by omega, by omega, hd⟩
      · exact Or.inr ⟨by omega, by omega, hd⟩
    · rintro (hg | ⟨ha, hb, hd⟩)
      · exact Or.inl (Or.inl hg)
      · by_cases e : g = s.stepCount + 1
        · exact Or.inl (Or.inr ⟨e, hd⟩)
        · exact Or.inr ⟨by omega, by omega, hd⟩

theorem getLast?_max {l : List Nat} (h : l.Pairwise (· < ·)) {g : Nat} (hl : l.getLast? = some g) : g ∈ l ∧ ∀ x ∈ l, x ≤ g := by
  have hg : g ∈ l := List.mem_of_getLast? hl
  refine ⟨hg, fun x hx => ?_⟩
  obtain ⟨pre, rfl⟩ : ∃ pre, l = pre ++ [g] := by
    rw [List.getLast?_eq_some_iff] at hl
    exact hl
  rw [List.pairwise_append] at h
  rcases List.mem_append.mp hx with hx | hx
  · exact Nat.le_of_lt (h.2.2 x hx g (by simp))
  · simp at hx; omega

theorem finalSave_inv {start : Nat} {m : Int} {af : Bool} {s : Pickling} (h : Inv start m af s) :
    Inv start m af (finalSave s) ∧ (finalSave s).stepCount = s.stepCount ∧ (finalSave s).saved.getLast? = some s.stepCount ∧
      ∀ g, g ∈ (finalSave s).saved ↔ g ∈ s.saved ∨ g = s.stepCount := by
  unfold finalSave
  split
  · rename_i hc
    refine ⟨save_inv h fun g hg => ?_, rfl, by simp [save], fun g => by simp [save]⟩
    rcases hc with hc | ⟨x, hx, hgt⟩
    · rw [h.last] at hc
      rw [List.getLast?_eq_none_iff] at hc
      rw [hc] at hg; cases hg
    · have hx' : s.saved.getLast? = some x := by rw [← h.last]; exact hx
      have := (getLast?_max h.sorted hx').2 g hg
      omega
  · rename_i hc
    push Not at hc
    obtain ⟨h1, h2⟩ := hc
    cases hl : s.lastGeneration with
    | none => exact absurd hl h1
    | some x =>
      have hx' : s.saved.getLast? = some x := by rw [← h.last]; exact hl
      have hmem := (getLast?_max h.sorted hx').1
      have hle := h.le x hmem
      have hge := h2 x hl
      have : x = s.stepCount := by omega
      refine ⟨h, rfl, by rw [hx', this], fun g => ⟨Or.inl, ?_⟩⟩
      rintro (hg | rfl)
      · exact hg
      · rw [← this]; exact hmem

theorem run_inv {start : Nat} {m : Int} {af : Bool} (hm : m ≠ 0) (n : Int) (s : Pickling) (h : Inv start m af s) :
    (run n s).result = .ok () ∧ Inv start m af (run n s).state ∧ (run n s).state.stepCount = s.stepCount + n.toNat ∧
      (run n s).state.saved.getLast? = some (s.stepCount + n.toNat) ∧
      ∀ g, g ∈ (run n s).state.saved ↔ g ∈ s.saved ∨ (s.stepCount < g ∧ g ≤ s.stepCount + n.toNat ∧ Due m af (g - start)) ∨ g = s.stepCount + n.toNat := by
  obtain ⟨h1, h2, h3, h4⟩ := steps_inv hm n.toNat s h
  obtain ⟨i1, i2, i3, i4⟩ := finalSave_inv h2
  unfold run
  simp only [h1]
  exact ⟨trivial, i1, by rw [i2, h3], by rw [i3, h3], fun g => by rw [i4, h4, h3, or_assoc]⟩

/-- C43: a logger attached to an algorithm with `start` steps, any non-zero interval, any history of steps and runs: nothing raises; the generations saved are
strictly increasing, so none is saved twice; they are exactly the generations at which the logger is due and the last generations of the runs. -/
theorem C43_saved_once (start : Nat) (m : Int) (af : Bool) (hm : m ≠ 0) (ops : List Op) :
    (runOps (fresh start m af) ops).result = .ok () ∧ (runOps (fresh start m af) ops).state.saved.Pairwise (· < ·) ∧
      (runOps (fresh start m af) ops).state.stepCount = start + totalSteps ops ∧
      ∀ g, g ∈ (runOps (fresh start m af) ops).state.saved ↔ Wanted start m af g start ops := by
  have gen : ∀ (ops : List Op) (s : Pickling), Inv start m af s → (runOps s ops).result = .ok () ∧ Inv start m af (runOps s ops).state ∧
      (runOps s ops).state.stepCount = s.stepCount + totalSteps ops ∧
      ∀ g, g ∈ (runOps s ops).state.saved ↔ g ∈ s.saved ∨ Wanted start m af g s.stepCount ops := by
    intro ops
    induction ops with
    | nil => intro s h; exact ⟨rfl, h, rfl, fun g => by simp [runOps, Wanted]⟩
    | cons op ops ih =>
      intro s h
      rw [runOps]
      cases op with
      | step =>
        obtain ⟨h1, h2, h3, h4⟩ := step_inv hm h
        obtain ⟨i1, i2, i3, i4⟩ := ih _ h2
        simp only [apply, h1]
        exact ⟨i1, i2, by rw [i3, h3]; simp [totalSteps, Nat.add_assoc], fun g => by rw [i4, h4, h3, Wanted, or_assoc]⟩
      | run n =>
        obtain ⟨h1, h2, h3, _, h4⟩ := run_inv hm n s h
        obtain ⟨i1, i2, i3, i4⟩ := ih _ h2
        simp only [apply, h1]
        exact ⟨i1, i2, by rw [i3, h3]; simp [totalSteps, Nat.add_assoc], fun g => by rw [i4, h4, h3, Wanted, or_assoc, or_assoc]⟩
  obtain ⟨h1, h2, h3, h4⟩ := gen ops (fresh start m af) ⟨by simp [fresh], by simp [fresh], by simp [fresh], by simp [fresh], by simp [fresh]⟩
  exact ⟨h1, h2.sorted, h3, fun g => by rw [h4]; simp [fresh]⟩

/-- C43: after any history that ends with a run, the newest save is of the last generation. -/
theorem C43_last_is_saved (start : Nat) (m : Int) (af : Bool) (hm : m ≠ 0) (ops : List Op) (n : Int) :
    (runOps (fresh start m af) (ops ++ [.run n])).result = .ok () ∧
    (runOps (fresh start m af) (ops ++ [.run n])).state.saved.getLast? = some (start + totalSteps (ops ++ [.run n])) := by
  have gen : ∀ (ops : List Op) (s : Pickling), Inv start m af s → (runOps s (ops ++ [.run n])).result = .ok () ∧
      (runOps s (ops ++ [.run n])).state.saved.getLast? = some (s.stepCount + totalSteps (ops ++ [.run n])) := by
    intro ops
    induction ops with
    | nil =>
      intro s h
      obtain ⟨h1, h2, h3, h4, _⟩ := run_inv hm n s h
      simp only [List.nil_append, runOps, apply, h1]
      exact ⟨trivial, by rw [h4]; simp [totalSteps]⟩
    | cons op ops ih =>
      intro s h
      rw [List.cons_append, runOps]
      cases op with
      | step =>
        obtain ⟨h1, h2, h3, h4⟩ := step_inv hm h
        obtain ⟨i1, i2⟩ := ih _ h2
        simp only [apply, h1]
        exact ⟨i1, by rw [i2, h3]; simp [totalSteps, Nat.add_assoc]⟩
      | run k =>
        obtain ⟨h1, h2, h3, _, h4⟩ := run_inv hm k s h
        obtain ⟨i1, i2⟩ := ih _ h2
        simp only [apply, h1]
        exact ⟨i1, by rw [i2, h3]; simp [totalSteps, Nat.add_assoc]⟩
  exact gen ops (fresh start m af) ⟨by simp [fresh], by simp [fresh], by simp [fresh], by simp [fresh], by simp [fresh]⟩

/-- **C43.** With the interval 0, the first step of a run fails, and so does the run: no further step is made, nothing is saved, not even at the end. -/
theorem C43_zero_interval (start : Nat) (af : Bool) (n : Int) (hn : 0 < n) :
    (run n (fresh start 0 af)).result = .error .zeroDivisionError ∧ (run n (fresh start 0 af)).state.stepCount = start + 1 ∧ (run n (fresh start 0 af)).state.saved = [] := by
  obtain ⟨k, hk⟩ : ∃ k, n.toNat = k + 1 := ⟨n.toNat - 1, by omega⟩
  simp [run, hk, steps, step, call, fresh]

/-- Interval 3, runs of 4 and 2 and a single step in between. -/
example : (runOps (fresh 0 3 false) [.run 4, .step, .run 2]).state.saved = [3, 4, 6, 7] := by decide
example : (runOps (fresh 0 3 false) [.run 6, .run 0]).state.saved = [3, 6] := by decide
example : (runOps (fresh 0 3 false) [.run 4, .step, .run 2]).state.saved.getLast? = some (0 + totalSteps [.run 4, .step, .run 2]) :=
  (C43_last_is_saved 0 3 false (by decide) [.run 4, .step] 2).2

end EvoTorch.Logger
