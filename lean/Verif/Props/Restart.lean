import Verif.Model.Restart
import Mathlib.Algebra.Order.Ring.Rat
import Mathlib.Data.Rat.Floor
/-!
C41: counting restarts, and the growth of the population under IPOP.
-/
namespace EvoTorch.Restart
variable {P S : Type}

theorem step_spec (c : AlgClass P S) (modify : St P S → P) (detect : S → Bool) (s : St P S) (a : S) (ha : s.algorithm = some a) :
    ((step c modify detect s).2 = detect (c.step a)) ∧
    (step c modify detect s).1.numRestarts = s.numRestarts + (if detect (c.step a) then 1 else 0) ∧ ∃ a', (step c modify detect s).1.algorithm = some a' := by
  unfold step
  rw [ha]
  simp only
  by_cases h : detect (c.step a) = true
  · simp [h, restart]
  · simp [h]

/-- C41: after any number of steps, `num_restarts` is one plus the number of steps in which termination was detected, and so many algorithms were built; this holds
for every way of modifying the arguments and detecting termination, so for `Restart` and `IPOP`. -/
theorem C41_num_restarts (c : AlgClass P S) (modify : St P S → P) (detect : S → Bool) (args : P) (n : Nat) :
    (steps c modify detect n (init c modify args)).1.numRestarts = 1 + (steps c modify detect n (init c modify args)).2.count true ∧
    (steps c modify detect n (init c modify args)).2.length = n ∧
    (steps c modify detect n (init c modify args)).1.builds.length = (steps c modify detect n (init c modify args)).1.numRestarts := by
  have gen : ∀ (n : Nat) (s : St P S) (a : S), s.algorithm = some a → s.builds.length = s.numRestarts →
      (steps c modify detect n s).1.numRestarts = s.numRestarts + (steps c modify detect n s).2.count true ∧ (steps c modify detect n s).2.length = n ∧
      (steps c modify detect n s).1.builds.length = (steps c modify detect n s).1.numRestarts := by
    intro n
    induction n with
    | zero => intro s a _ hb; exact ⟨by simp [steps], by simp [steps], hb⟩
    | succ n ih =>
      intro s a ha hb
      obtain ⟨h1, h2, a', h3⟩ := step_spec c modify detect s a ha
      have hb' : (step c modify detect s).1.builds.length = (step c modify detect s).1.numRestarts := by
        unfold step
        rw [ha]
        simp only
        by_cases h : detect (c.step a) = true
        · simp [h, restart, hb]
        · simp [h, hb]
      obtain ⟨i1, i2, i3⟩ := ih _ a' h3 hb'
      rw [steps]
      simp only
      refine ⟨?_, by simp [i2], i3⟩
      rw [i1, h2, h1]
      by_cases h : detect (c.step a) = true
      · simp [h]; omega
      · simp [h]
  obtain ⟨h1, h2, h3⟩ := gen n (init c modify args) (c.build (modify ⟨args, 0, none, []⟩)) rfl rfl
  exact ⟨by rw [h1]; rfl, h2, h3⟩

/-- C41, what "detected" means for plain `Restart`: after the inner algorithm was stepped, it says that it is terminated. Without that the inner algorithm simply
goes on. -/
theorem C41_step (c : AlgClass P S) (s : St P S) (a : S) (ha : s.algorithm = some a) :
    let t := step c plainModify c.terminated s
    (c.terminated (c.step a) = true → t.2 = true ∧ t.1.algorithm = some (c.build s.args) ∧ t.1.args = s.args ∧ t.1.numRestarts = s.numRestarts + 1) ∧
    (c.terminated (c.step a) = false → t.2 = false ∧ t.1.algorithm = some (c.step a) ∧ t.1.args = s.args ∧ t.1.numRestarts = s.numRestarts) := by
  simp only [step, ha]
  constructor
  · intro h; simp [h, restart, plainModify]
  · intro h; simp [h]

section
variable {K : Type} [Field K] [LinearOrder K] [IsStrictOrderedRing K] [FloorRing K]

/-- Specification: `int(m * p)` for a non-negative product is the greatest integer not above it. -/
theorem trunc_spec (x : K) (hx : 0 ≤ x) : ((trunc x : Int) : K) ≤ x ∧ x < (trunc x : Int) + 1 := by
  simp only [trunc, hx, if_true]
  exact ⟨Int.floor_le x, Int.lt_floor_add_one x⟩

/-- C41, IPOP: the first algorithm is built with the given arguments; and for algorithms whose population has the requested size (`popsize`) and keeps it, each later
algorithm is built with the previous population size multiplied by the multiplier and truncated. -/
theorem C41_ipop (c : AlgClass P S) (i : IpopConfig K P S) (popsize : P → Int) (hset : ∀ p n, popsize (i.setPopsize p n) = n)
    (hbuild : ∀ p, 0 ≤ popsize p → (i.popLen (c.build p) : Int) = popsize p) (hstep : ∀ a, i.popLen (c.step a) = i.popLen a) (hmult : 0 ≤ i.multiplier)
    (args : P) (hargs : 0 ≤ popsize args) (n : Nat) :
    let t := (steps c (ipopModify i) (ipopDetect c i) n (init c (ipopModify i) args)).1
    t.builds[0]? = some args ∧
    ∀ (k : Nat) x y, t.builds[k]? = some x → t.builds[k + 1]? = some y → popsize y = trunc (i.multiplier * (popsize x : K)) := by
  -- the invariant: the present algorithm was built last, and its population has that size
  have gen : ∀ (n : Nat) (s : St P S) (a : S), s.algorithm = some a → 1 ≤ s.numRestarts → s.builds[0]? = some args → (∃ p, s.builds.getLast? = some p ∧ 0 ≤ popsize p ∧ (i.popLen a : Int) = popsize p) →
      (∀ (k : Nat) x y, s.builds[k]? = some x → s.builds[k + 1]? = some y → popsize y = trunc (i.multiplier * (popsize x : K))) →
      (steps c (ipopModify i) (ipopDetect c i) n s).1.builds[0]? = some args ∧
      ∀ (k : Nat) x y, (steps c (ipopModify i) (ipopDetect c i) n s).1.builds[k]? = some x → (steps c (ipopModify i) (ipopDetect c i) n s).1.builds[k + 1]? = some y →
        popsize y = trunc (i.multiplier * (popsize x : K)) := by
    intro n
    induction n with
    | zero => intro s a _ _ h0 _ hc; exact ⟨h0, hc⟩
    | succ n ih =>
      intro s a ha hr h0 hlast hc
      obtain ⟨p, hp, hp0, hlen⟩ := hlast
      rw [steps]
      simp only
      by_cases hd : ipopDetect c i (c.step a) = true
      · have hst : (step c (ipopModify i) (ipopDetect c i) s).1 =
            restart c (ipopModify i) { s with algorithm := some (c.step a) } := by simp [step, ha, hd]
        rw [hst]
        have hmod : ipopModify i { s with algorithm := some (c.step a) } = i.setPopsize s.args (trunc (i.multiplier * (i.popLen (c.step a) : K))) := by
          simp [ipopModify, hr]
        have hcast : ((i.popLen (c.step a) : Nat) : K) = (popsize p : K) := by
          rw [hstep, ← hlen]; simp
        have hnn : 0 ≤ trunc (i.multiplier * (popsize p : K)) := by
          have : (0 : K) ≤ i.multiplier * (popsize p : K) := mul_nonneg hmult (by exact_mod_cast hp0)
          simp only [trunc, this, if_true]
          exact Int.floor_nonneg.mpr this
        obtain ⟨pre, hpre⟩ : ∃ pre, s.builds = pre ++ [p] := by rw [List.getLast?_eq_some_iff] at hp; exact hp
        refine ih _ (c.build (ipopModify i { s with algorithm := some (c.step a) })) rfl (by simp [restart]) ?_ ?_ ?_
        · simp only [restart]
          rw [List.getElem?_append_left (by rw [hpre]; simp)]
          exact h0
        · refine ⟨ipopModify i { s with algorithm := some (c.step a) }, by simp [restart], ?_, ?_⟩
          · rw [hmod, hset, hcast]; exact hnn
          · exact hbuild _ (by rw [hmod, hset, hcast]; exact hnn)
        · intro k x y hx hy
          simp only [restart] at hx hy
          have hyl := (List.getElem?_eq_some_iff.mp hy).1
          simp only [List.length_append, List.length_singleton] at hyl
          rw [List.getElem?_append_left (by omega)] at hx
          by_cases hk : k + 1 < s.builds.length
          · rw [List.getElem?_append_left hk] at hy
            exact hc k x y hx hy
          · have hk' : k + 1 = s.builds.length := by omega
            rw [hk', List.getElem?_append_right (Nat.le_refl _)] at hy
            simp only [Nat.sub_self, List.getElem?_cons_zero, Option.some.injEq] at hy
            have hxp : x = p := by
              rw [hpre] at hx hk'
              simp only [List.length_append, List.length_singleton, Nat.add_right_cancel_iff] at hk'
              rw [hk', List.getElem?_append_right (Nat.le_refl _)] at hx
              simpa using hx.symm
            rw [← hy, hmod, hset, hcast, hxp]
      · have hst : (step c (ipopModify i) (ipopDetect c i) s).1 = { s with algorithm := some (c.step a) } := by simp [step, ha, hd]
        rw [hst]
        exact ih _ (c.step a) rfl hr h0 ⟨p, hp, hp0, by rw [hstep]; exact hlen⟩ hc
  have hm0 : ipopModify i (⟨args, 0, none, []⟩ : St P S) = args := by simp [ipopModify]
  refine gen n (init c (ipopModify i) args) (c.build args) (by simp [init, restart, hm0]) (by simp [init, restart]) (by simp [init, restart, hm0])
    ⟨args, by simp [init, restart, hm0], hargs, hbuild args hargs⟩ ?_
  intro k x y hx hy
  simp [init, restart] at hy

/-- C41, IPOP: termination is detected when the standard deviation of the evaluation results falls below the minimum, or the inner algorithm says so; a NaN
standard deviation (a population of one) is not below anything. -/
theorem C41_ipop_detect (c : AlgClass P S) (i : IpopConfig K P S) (a : S) :
    (ipopDetect c i a = true ↔ Flt.lt (i.std a) i.minStdev = true ∨ c.terminated a = true) ∧
    (i.std a = .nan → ipopDetect c i a = c.terminated a) := by
  constructor
  · unfold ipopDetect; by_cases h : Flt.lt (i.std a) i.minStdev = true <;> simp [h]
  · intro h; simp [ipopDetect, h, Flt.lt]

end

/-! ### Concrete case -/

/-- Arguments: the population size. State: population size and number of steps; terminated after two steps. -/
def sampleClass : AlgClass Int (Nat × Nat) := ⟨fun p => (p.toNat, 0), fun a => (a.1, a.2 + 1), fun a => decide (a.2 ≥ 2)⟩
def sampleIpop : IpopConfig ℚ Int (Nat × Nat) := ⟨fun a => a.1, fun _ => .fin 1, fun _ n => n, .fin (1/10), 3/2⟩

example : (steps sampleClass plainModify sampleClass.terminated 5 (init sampleClass plainModify 10)).1.numRestarts = 3 ∧
    (steps sampleClass plainModify sampleClass.terminated 5 (init sampleClass plainModify 10)).2 = [false, true, false, true, false] := by decide

example : (steps sampleClass (ipopModify sampleIpop) (ipopDetect sampleClass sampleIpop) 7 (init sampleClass (ipopModify sampleIpop) 5)).1.builds = [5, 7, 10, 15] := by
  decide +kernel

example : (steps sampleClass (ipopModify sampleIpop) (ipopDetect sampleClass sampleIpop) 7 (init sampleClass (ipopModify sampleIpop) 5)).1.builds[0]? = some 5 :=
  (C41_ipop sampleClass sampleIpop (fun p => p) (fun _ _ => rfl) (fun p hp => by simp [sampleIpop, sampleClass, hp]) (fun _ => rfl)
    (by norm_num [sampleIpop]) 5 (by decide) 7).1

end EvoTorch.Restart
