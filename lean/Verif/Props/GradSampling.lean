import Verif.Model.GradSampling
import Verif.Props.Workload
import Mathlib.Data.List.Forall2
import Mathlib.Algebra.BigOperators.Group.List.Lemmas
import Mathlib.Algebra.Order.BigOperators.Group.List
import Mathlib.Data.Fin.VecNotation
import Mathlib.Tactic.FieldSimp
import Mathlib.Tactic.Linarith
import Mathlib.Tactic.Positivity
/-! C55: distributed gradients. C56: the adaptive population loop. C74, C75: the sizes of the sub-populations. -/
namespace EvoTorch.GradSampling
open Workload

/-! ### C74, C75: sizes -/

theorem taskSizes_sum {p : Nat} {sb ns : Option Nat} {n : Nat} {l : List Nat} (h : taskSizes p sb ns n = .ok l) : l.sum = p := by
  have hsplit : ∀ m l, splitWorkload p m = .ok l → l.sum = p := by
    intro m l h
    by_cases hm : m = 0
    · simp [splitWorkload, hm] at h
    · obtain ⟨l', e, f⟩ := C08_split_workload_fair p m (Nat.pos_of_ne_zero hm)
      rw [e] at h; injection h with h; subst h; exact f.sum
  unfold taskSizes at h
  split at h
  · split at h
    · cases h
    · split at h
      · cases h
      · rename_i k _ h1 h2
        injection h with h; subst h
        simp only [List.sum_replicate, smul_eq_mul]
        exact Nat.div_mul_cancel (Nat.dvd_of_mod_eq_zero (not_not.mp h2))
  · exact hsplit _ _ h
  · exact hsplit _ _ h

theorem makeEven_sum (l : List Nat) : (makeEven l).sum = l.sum + l.countP (fun n => n % 2 = 1) := by
  induction l with
  | nil => rfl
  | cons a l ih =>
    have : (makeEven (a :: l)) = (if a % 2 ≠ 0 then a + 1 else a) :: makeEven l := rfl
    rw [this, List.sum_cons, ih, List.sum_cons, List.countP_cons]
    rcases Nat.mod_two_eq_zero_or_one a with h | h <;> simp [h] <;> omega

/-- The number of solutions of each answer, when no interaction threshold is given: every actor samples one batch of the size
it was asked for, and the answers come back in any order. -/
theorem numSolutions_sum {β K : Type} [Field K] {d : Nat} {reqs : List (Nat × Option Nat × Option Nat)} {batches : List (List β)}
    (hb : List.Forall₂ (fun (t : Nat × Option Nat × Option Nat) (b : List β) => b.length = t.1) reqs batches) {answers : List (Answer K d)}
    {evals : β → K} {grads} (hp : answers.Perm (batches.map (answer evals grads))) :
    (answers.map Answer.numSolutions).sum = (reqs.map (·.1)).sum := by
  rw [(hp.map Answer.numSolutions).sum_eq]
  clear hp
  induction hb with
  | nil => rfl
  | cons h _ ih => simp only [List.map_cons, List.sum_cons, ih]; rw [← h]; rfl

/-- **C74.** Whatever the population size, the number of actors, `subbatch_size` and `num_subbatches`: when the request is
accepted (and sub-populations need not be even), the sizes of all sub-populations add up to the requested population size, and
so do the reported `num_solutions` when every sub-population is sampled once, in whatever order the answers arrive. With an
interaction threshold every sub-population is sampled at least once, so the total is at least the population size. -/
theorem C74_sizes_add_up {β K : Type} [Field K] {d : Nat} (popsize : Nat) (numInteractions popsizeMax sb ns : Option Nat)
    (numActors : Nat) (reqs) (h : request popsize numInteractions popsizeMax sb ns numActors false = .ok reqs)
    (evals : β → K) (grads : List β → List (String × Grad K d)) :
    (reqs.map (·.1)).sum = popsize ∧
    (∀ (batches : List (List β)) (answers : List (Answer K d)), List.Forall₂ (fun (t : Nat × Option Nat × Option Nat) (b : List β) => b.length = t.1) reqs batches →
      answers.Perm (batches.map (answer evals grads)) → (answers.map Answer.numSolutions).sum = popsize) ∧
    (∀ (batches : List (List β)) (answers : List (Answer K d)), List.Forall₂ (fun (t : Nat × Option Nat × Option Nat) (b : List β) => ∃ k, 1 ≤ k ∧ b.length = k * t.1)
      reqs batches → answers.Perm (batches.map (answer evals grads)) → popsize ≤ (answers.map Answer.numSolutions).sum) := by
  have hsum : (reqs.map (·.1)).sum = popsize := by
    unfold request at h
    split at h
    · split at h
      · cases h
      · injection h with h; subst h; simp
    · unfold tasks at h
      split at h
      · cases h
      · simp only [popsizePerTask, bind, Except.bind, pure, Except.pure, if_false, Bool.false_eq_true] at h
        cases ht : taskSizes popsize sb ns numActors with
        | error e => rw [ht] at h; cases h
        | ok l =>
          rw [ht] at h
          injection h with h; subst h
          simpa [List.map_map, Function.comp_def] using taskSizes_sum ht
  refine ⟨hsum, fun batches answers hb hp => (numSolutions_sum hb hp).trans hsum, fun batches answers hb hp => ?_⟩
  rw [(hp.map Answer.numSolutions).sum_eq, ← hsum]
  clear h hsum hp
  induction hb with
  | nil => simp
  | cons h _ ih =>
    obtain ⟨k, hk, e⟩ := h
    simp only [List.map_cons, List.sum_cons, answer, e]
    have := Nat.mul_le_mul_right (by assumption : Nat × Option Nat × Option Nat).1 hk
    omega

/-- **C74, the shares.** A parallelised problem (thresholds as they may be given) asks for sub-populations of exactly `subbatch_size` solutions, and refuses a population size which is not a multiple of it; else
for `num_subbatches` fair shares; else for one fair share per actor. A problem without actors samples everything itself. -/
theorem C74_shares (popsize : Nat) (numInteractions popsizeMax : Option Nat) (hp : (numInteractions.isNone && popsizeMax.isSome) = false) (numActors : Nat) (hn : 0 < numActors) :
    (∀ k ns, 0 < k → k ∣ popsize → ∃ reqs, request popsize numInteractions popsizeMax (some k) ns numActors false = .ok reqs ∧ reqs.length * k = popsize ∧ ∀ r ∈ reqs, r.1 = k) ∧
    (∀ k ns, 0 < k → ¬ k ∣ popsize → request popsize numInteractions popsizeMax (some k) ns numActors false = .error .valueError) ∧
    (∀ m, 0 < m → ∃ reqs, request popsize numInteractions popsizeMax none (some m) numActors false = .ok reqs ∧ FairSplit popsize m (reqs.map (·.1))) ∧
    (∃ reqs, request popsize numInteractions popsizeMax none none numActors false = .ok reqs ∧ FairSplit popsize numActors (reqs.map (·.1))) ∧
    ∀ sb ns, ∃ r, request popsize numInteractions popsizeMax sb ns 0 false = .ok [r] ∧ r.1 = popsize := by
  have hn0 : numActors ≠ 0 := by omega
  have key : ∀ sb ns sizes, taskSizes popsize sb ns numActors = .ok sizes → ∃ reqs, request popsize numInteractions popsizeMax sb ns numActors false = .ok reqs ∧ reqs.map (·.1) = sizes := by
    intro sb ns sizes h
    refine ⟨_, by simp only [request, hn0, if_false, tasks, hp, popsizePerTask, h]; rfl, ?_⟩
    simp [List.map_map, Function.comp_def]
  refine ⟨fun k ns hk hd => ?_, fun k ns hk hd => ?_, fun m hm => ?_, ?_, fun sb ns => ⟨_, by simp only [request, if_true, hp]; rfl, rfl⟩⟩
  · have hmod : popsize % k = 0 := Nat.mod_eq_zero_of_dvd hd
    obtain ⟨reqs, h1, h2⟩ := key (some k) ns (List.replicate (popsize / k) k) (by simp [taskSizes, hmod, hk.ne'])
    have hl := congrArg List.length h2
    simp only [List.length_map, List.length_replicate] at hl
    refine ⟨reqs, h1, by rw [hl]; exact Nat.div_mul_cancel hd, fun r hr => ?_⟩
    exact List.eq_of_mem_replicate (h2 ▸ List.mem_map_of_mem hr : r.1 ∈ List.replicate (popsize / k) k)
  · have hmod : popsize % k ≠ 0 := fun h => hd (Nat.dvd_of_mod_eq_zero h)
    have ht : taskSizes popsize (some k) ns numActors = .error .valueError := by simp [taskSizes, hmod, hk.ne']
    simp only [request, hn0, if_false, tasks, hp, popsizePerTask, ht]
    rfl
  · obtain ⟨l, e, f⟩ := C08_split_workload_fair popsize m hm
    obtain ⟨reqs, h1, h2⟩ := key none (some m) l e
    exact ⟨reqs, h1, h2 ▸ f⟩
  · obtain ⟨l, e, f⟩ := C08_split_workload_fair popsize numActors hn
    obtain ⟨reqs, h1, h2⟩ := key none none l e
    exact ⟨reqs, h1, h2 ▸ f⟩

example : request 12 none none none (some 5) 3 false = .ok [(3, none, none), (3, none, none), (2, none, none), (2, none, none), (2, none, none)] := rfl

example : request 11 none none none none 4 false = .ok [(3, none, none), (3, none, none), (3, none, none), (2, none, none)] :=
  rfl
example : request 12 (some 100) none (some 4) none 2 false = .ok [(4, some 34, none), (4, some 34, none), (4, some 34, none)] := by
  decide +kernel

/-- **C75 (partial).** With `ensure_even_popsize` on a parallelised problem every sub-population is even and at least as large
as without it, and the total exceeds the requested population size by exactly the number of odd shares. The interaction and
population-size thresholds given to the actors cover the requested ones. Missing: without actors an odd population size should
be refused, see `C75_violated`. -/
theorem C75_even_sizes_partial (popsize : Nat) (numInteractions popsizeMax sb ns : Option Nat)
    (numActors : Nat) (hn : 0 < numActors) (reqs) (h : request popsize numInteractions popsizeMax sb ns numActors true = .ok reqs) :
    (∀ r ∈ reqs, r.1 % 2 = 0) ∧
    (∃ reqs0, request popsize numInteractions popsizeMax sb ns numActors false = .ok reqs0 ∧ reqs0.length = reqs.length ∧
      List.Forall₂ (fun r0 r : Nat × Option Nat × Option Nat => r0.1 ≤ r.1 ∧ r.1 ≤ r0.1 + 1) reqs0 reqs ∧
      (reqs.map (·.1)).sum = popsize + reqs0.countP (fun r => r.1 % 2 = 1)) ∧
    (0 < popsize → ∀ L, numInteractions = some L → ∃ ls : List Nat, reqs.map (·.2.1) = ls.map some ∧ L ≤ ls.sum) ∧
    (0 < popsize → ∀ L, popsizeMax = some L → ∃ ls : List Nat, reqs.map (·.2.2) = ls.map some ∧ L ≤ ls.sum) := by
  have hn0 : numActors ≠ 0 := by omega
  unfold request at h
  rw [if_neg hn0] at h
  unfold tasks at h
  split at h
  · cases h
  · rename_i hc
    simp only [popsizePerTask, bind, Except.bind, pure, Except.pure, if_true] at h
    cases ht : taskSizes popsize sb ns numActors with
    | error e => rw [ht] at h; cases h
    | ok l =>
      rw [ht] at h
      injection h with h; subst h
      have hsum := taskSizes_sum ht
      have hlim : ∀ L, 0 < popsize → L ≤ ((makeEven l).map (limitPerTask popsize L)).sum := by
        intro L hp
        have hp' : (0:ℚ) < popsize := by exact_mod_cast hp
        have key : ∀ l' : List Nat, ((l'.sum : ℚ) / popsize) * L ≤ (((l'.map (limitPerTask popsize L)).sum : Nat) : ℚ) := by
          intro l'
          induction l' with
          | nil => simp
          | cons a l' ih =>
            have ha : ((a : ℚ) / popsize) * L ≤ (limitPerTask popsize L a : ℚ) := by
              unfold limitPerTask
              have h1 := Int.le_ceil (((a : ℚ) / popsize) * L)
              have h2 : ((⌈((a : ℚ) / popsize) * L⌉ : ℤ) : ℚ) ≤ ((⌈((a : ℚ) / popsize) * L⌉.toNat : ℤ) : ℚ) := by
                exact_mod_cast Int.self_le_toNat _
              exact h1.trans (by exact_mod_cast h2)
            simp only [List.sum_cons, List.map_cons]
            push_cast at ih ⊢
            rw [add_div, add_mul]
            linarith
        have h1 := key (makeEven l)
        have h2 : (popsize : ℚ) ≤ ((makeEven l).sum : ℚ) := by
          rw [makeEven_sum, hsum]; exact_mod_cast Nat.le_add_right _ _
        have h3 : (1:ℚ) ≤ ((makeEven l).sum : ℚ) / popsize := by rw [le_div_iff₀ hp']; linarith
        have h4 : (L : ℚ) ≤ (((makeEven l).sum : ℚ) / popsize) * L := by
          have : (0:ℚ) ≤ L := by positivity
          nlinarith
        exact_mod_cast h4.trans h1
      refine ⟨?_, ⟨l.map fun n => (n, numInteractions.map fun L => limitPerTask popsize L n,
        popsizeMax.map fun L => limitPerTask popsize L n), ?_, ?_, ?_, ?_⟩, ?_, ?_⟩
      · intro r hr
        simp only [List.mem_map, makeEven] at hr
        obtain ⟨a, ⟨b, _, rfl⟩, rfl⟩ := hr
        simp only
        split <;> omega
      · unfold request tasks
        rw [if_neg hn0, if_neg hc]
        simp only [popsizePerTask, bind, Except.bind, pure, Except.pure, ht]
        rfl
      · simp [makeEven]
      · simp only [makeEven, List.map_map]
        rw [List.forall₂_map_left_iff, List.forall₂_map_right_iff, List.forall₂_same]
        intro a _
        simp only [Function.comp]
        split <;> omega
      · have : ((makeEven l).map fun n => ((n, numInteractions.map fun L => limitPerTask popsize L n,
          popsizeMax.map fun L => limitPerTask popsize L n) : Nat × Option Nat × Option Nat)).map (·.1) = makeEven l := by
          simp [List.map_map, Function.comp_def]
        rw [this, makeEven_sum, hsum, List.countP_map]
        rfl
      · rintro hp L rfl
        exact ⟨(makeEven l).map (limitPerTask popsize L), by simp [List.map_map, Function.comp_def], hlim L hp⟩
      · rintro hp L rfl
        exact ⟨(makeEven l).map (limitPerTask popsize L), by simp [List.map_map, Function.comp_def], hlim L hp⟩

example : request 11 (some 50) (some 22) none none 4 true =
    .ok [(4, some 19, some 8), (4, some 19, some 8), (4, some 19, some 8), (2, some 10, some 4)] := by decide +kernel

/-- **C75, violated.** "If `ensure_even_popsize` is True and the problem is not parallelized, then a `popsize` given as an odd
number will cause an error": it does not; the request goes through unchanged. -/
theorem C75_violated (popsize : Nat) (numInteractions sb ns : Option Nat) :
    request popsize numInteractions none sb ns 0 true = .ok [(popsize, numInteractions, none)] := by
  unfold request; simp

example : request 7 none none none none 0 true = .ok [(7, none, none)] := rfl

/-! ### C56 -/

/-- The stopping condition after `k` sub-populations of size `popsize`: the maximum population size is reached, or more
interactions than the threshold have been made since the beginning. -/
def StopsAt (popsize : Nat) (popsizeMax : Option Nat) (numInteractions : Nat) (made : Nat → Nat) (k : Nat) : Prop :=
  (∃ m, popsizeMax = some m ∧ m ≤ k * popsize) ∨ made 0 + numInteractions < made k

variable {β : Type}

theorem maxReached_iff {pm : Option Nat} {t : Nat} : maxReached pm t = true ↔ ∃ m, pm = some m ∧ m ≤ t := by
  cases pm <;> simp [maxReached]

theorem stepLoop_stops {popsize : Nat} {pm : Option Nat} {n : Nat} {made : Nat → Nat} {counts : Nat → Option Nat}
    {batch : Nat → List β} (h0 : (counts 0).getD 0 = made 0) (hc : ∀ k, counts (k + 1) = some (made (k + 1)))
    (hb : ∀ k, (batch k).length = popsize) {K : Nat} (hK : StopsAt popsize pm n made K) :
    ∀ fuel k, k < K → (∀ j, k < j → j < K → ¬ StopsAt popsize pm n made j) → K - k ≤ fuel →
      stepLoop pm n counts batch fuel k ((List.range k).map batch) (k * popsize) = some (.ok ((List.range K).map batch).flatten) := by
  intro fuel
  induction fuel with
  | zero => intro k h1 _ h3; omega
  | succ fuel ih =>
    intro k h1 h2 h3
    have hr : (List.range k).map batch ++ [batch k] = (List.range (k + 1)).map batch := by
      rw [List.range_succ, List.map_append]; rfl
    have ht : k * popsize + (batch k).length = (k + 1) * popsize := by rw [hb]; ring
    simp only [stepLoop, hr, ht, hc, h0]
    by_cases hlast : k + 1 = K
    · subst hlast
      by_cases hm : maxReached pm ((k + 1) * popsize) = true
      · rw [if_pos hm]
      · rw [if_neg hm]
        rcases hK with h | h
        · exact absurd (maxReached_iff.2 h) hm
        · rw [if_pos (by omega)]
    · have hns := h2 (k + 1) (by omega) (by omega)
      have hm : ¬ maxReached pm ((k + 1) * popsize) = true := fun h => hns (Or.inl (maxReached_iff.1 h))
      have hi : ¬ ((made (k + 1) : Int) - (made 0 : Nat) > (n : Int)) := fun h => hns (Or.inr (by omega))
      rw [if_neg hm, if_neg hi]
      exact ih (k + 1) (by omega) (fun j hj => h2 j (by omega)) (by omega)

theorem stepLoop_never {popsize : Nat} {pm : Option Nat} {n : Nat} {made : Nat → Nat} {counts : Nat → Option Nat}
    {batch : Nat → List β} (h0 : (counts 0).getD 0 = made 0) (hc : ∀ k, counts (k + 1) = some (made (k + 1)))
    (hb : ∀ k, (batch k).length = popsize) (hK : ∀ k, 1 ≤ k → ¬ StopsAt popsize pm n made k) :
    ∀ fuel k pops, stepLoop pm n counts batch fuel k pops (k * popsize) = none := by
  intro fuel
  induction fuel with
  | zero => intros; rfl
  | succ fuel ih =>
    intro k pops
    have ht : k * popsize + (batch k).length = (k + 1) * popsize := by rw [hb]; ring
    have hns := hK (k + 1) (by omega)
    have hm : ¬ maxReached pm ((k + 1) * popsize) = true := fun h => hns (Or.inl (maxReached_iff.1 h))
    have hi : ¬ ((made (k + 1) : Int) - (made 0 : Nat) > (n : Int)) := fun h => hns (Or.inr (by omega))
    simp only [stepLoop, ht, hc, h0]
    rw [if_neg hm, if_neg hi]
    exact ih _ _

/-- **C56.** For every interaction history, every population size, threshold and maximum: if `K ≥ 1` is the first number of
sub-populations at which the stopping condition holds, the step ends after exactly `K` of them and the population is the
concatenation of the `K` sampled sub-populations (of size `K * popsize`); the step never ends exactly when the condition never
holds; it always holds eventually if a maximum is given (and sub-populations are not empty), or if each evaluation makes at
least one interaction. -/
theorem C56_adaptive_step (popsize : Nat) (popsizeMax : Option Nat) (numInteractions : Nat) (made : Nat → Nat)
    (counts : Nat → Option Nat) (h0 : (counts 0).getD 0 = made 0) (hc : ∀ k, counts (k + 1) = some (made (k + 1)))
    (batch : Nat → List β) (hb : ∀ k, (batch k).length = popsize) :
    (∀ K, 1 ≤ K → StopsAt popsize popsizeMax numInteractions made K →
      (∀ j, 1 ≤ j → j < K → ¬ StopsAt popsize popsizeMax numInteractions made j) →
      (∀ fuel, K ≤ fuel → adaptiveStep popsizeMax numInteractions counts batch fuel =
        some (.ok ((List.range K).map batch).flatten)) ∧
      (((List.range K).map batch).flatten).length = K * popsize) ∧
    ((∀ K, 1 ≤ K → ¬ StopsAt popsize popsizeMax numInteractions made K) →
      ∀ fuel, adaptiveStep popsizeMax numInteractions counts batch fuel = none) ∧
    ((∃ m, popsizeMax = some m ∧ 0 < popsize) ∨ (∀ k, made k < made (k + 1)) →
      ∃ K, 1 ≤ K ∧ StopsAt popsize popsizeMax numInteractions made K) := by
  refine ⟨fun K h1 h2 h3 => ⟨fun fuel hf => ?_, ?_⟩, fun h fuel => ?_, ?_⟩
  · have := stepLoop_stops (batch := batch) h0 hc hb h2 fuel 0 (by omega) (fun j hj => h3 j (by omega)) (by omega)
    simpa [adaptiveStep] using this
  · simp [List.length_flatten, Function.comp_def, hb]
  · have := stepLoop_never (batch := batch) h0 hc hb h fuel 0 []
    simpa [adaptiveStep] using this
  · rintro (⟨m, rfl, hp⟩ | h)
    · exact ⟨m + 1, by omega, Or.inl ⟨m, rfl, by nlinarith⟩⟩
    · refine ⟨numInteractions + 1, by omega, Or.inr ?_⟩
      have : ∀ k, made 0 + k ≤ made k := by
        intro k
        induction k with
        | zero => simp
        | succ k ih => have := h k; omega
      have := this (numInteractions + 1); omega

/-- Non-vacuity: 10 interactions per sub-population of two solutions and a threshold of 25: three sub-populations. -/
example : adaptiveStep (some 100) 25 (fun k => if k = 0 then none else some (10 * k)) (fun k => [2 * k, 2 * k + 1]) 10 =
      some (.ok [0, 1, 2, 3, 4, 5]) ∧
    StopsAt 2 (some 100) 25 (fun k => 10 * k) 3 ∧ ¬ StopsAt 2 (some 100) 25 (fun k => 10 * k) 2 := by
  refine ⟨rfl, Or.inr (by decide), ?_⟩
  rintro (⟨m, h, h'⟩ | h)
  · injection h with h; omega
  · exact absurd h (by decide)

/-- **C56**, outside reinforcement learning: a problem that reports no interaction counter makes the step fail (unless the first
sub-population already reaches the maximum). -/
theorem C56_no_counter (popsizeMax : Option Nat) (numInteractions : Nat) (batch : Nat → List β) (fuel : Nat)
    (h : maxReached popsizeMax (batch 0).length = false) :
    adaptiveStep popsizeMax numInteractions (fun _ => none) batch (fuel + 1) = some (.error .keyError) := by
  simp [adaptiveStep, stepLoop, h]

/-- **C56**, the actors run the same loop: on a problem that implements its interaction counter, the batch on which an actor
computes its gradients is the population that a non-distributed step with the same thresholds would produce. -/
theorem C56_actors_agree (popsize : Nat) (popsizeMax : Option Nat) (numInteractions : Nat) (made : Nat → Nat)
    (batch : Nat → List β) (hb : ∀ k, (batch k).length = popsize) (fuel : Nat) :
    taskBatch popsize (some numInteractions) popsizeMax (fun k => some (made k)) batch fuel =
      adaptiveStep popsizeMax numInteractions (fun k => some (made k)) batch fuel := by
  unfold taskBatch adaptiveStep
  simp only
  generalize hk : (0:Nat) = k, ([] : List (List β)) = pops
  have : ∀ fuel k pops tot, taskLoop popsize popsizeMax numInteractions (fun k => some (made k)) batch fuel k pops tot =
      stepLoop popsizeMax numInteractions (fun k => some (made k)) batch fuel k pops tot := by
    intro fuel
    induction fuel with
    | zero => intros; rfl
    | succ fuel ih =>
      intro k pops tot
      simp only [taskLoop, stepLoop, hb, Option.getD_some, ih]
      by_cases h1 : ((made (k + 1) : Int) - (made 0 : Int) > (numInteractions : Int)) <;>
        by_cases h2 : maxReached popsizeMax (tot + popsize) = true <;> simp [h1, h2]
  exact this _ _ _ _

example : taskBatch 2 (some 25) none (fun k => some (7 + 10 * k)) (fun k => [2 * k, 2 * k + 1]) 10 =
    some (.ok [0, 1, 2, 3, 4, 5]) := rfl

/-! ### C55 -/

variable {K : Type} [Field K] {d : Nat}

/-- The value of a vector gradient under a key. -/
def HasGrad (key : String) (a : Answer K d) (g : Fin d → K) : Prop := a.gradients.lookup key = some (.vec g)

theorem accumulate_eq (key : String) (l : List (K × Answer K d)) (G : Answer K d → Fin d → K)
    (h : ∀ p ∈ l, HasGrad key p.2 (G p.2)) : ∀ acc, accumulate key l acc = .ok fun j => acc j + (l.map fun p => p.1 * G p.2 j).sum := by
  induction l with
  | nil => intro acc; simp [accumulate]
  | cons p l ih =>
    intro acc
    obtain ⟨w, a⟩ := p
    have ha : a.gradients.lookup key = some (.vec (G a)) := h (w, a) (by simp)
    simp only [accumulate, ha]
    rw [ih (fun p hp => h p (by simp [hp]))]
    congr 1; funext j; simp [add_assoc]

/-- The weight of an answer: its share of all solutions, or one over the number of answers. -/
def weightOf (weighted : Bool) (fetched : List (Answer K d)) (a : Answer K d) : K :=
  if weighted then (a.numSolutions : K) / (((fetched.map Answer.numSolutions).sum : Nat) : K) else 1 / (fetched.length : K)

theorem weights_zip (weighted : Bool) (fetched : List (Answer K d)) (f : K → Answer K d → K) :
    (((answerWeights weighted fetched).zip fetched).map fun p => f p.1 p.2) = fetched.map fun a => f (weightOf weighted fetched a) a := by
  have : answerWeights weighted fetched = fetched.map (weightOf weighted fetched) := rfl
  rw [this]
  clear this
  generalize weightOf weighted fetched = w
  induction fetched with
  | nil => rfl
  | cons a l ih => simp [ih]

theorem mapM_ok {α γ : Type} {f : α → Except PyErr γ} {g : α → γ} (l : List α) (h : ∀ a ∈ l, f a = .ok (g a)) :
    l.mapM f = .ok (l.map g) := by
  induction l with
  | nil => rfl
  | cons a l ih =>
    rw [List.mapM_cons, h a (by simp), ih fun b hb => h b (by simp [hb])]
    rfl

/-- What the combination of the answers is, when all of them have vector gradients under the same keys. -/
theorem combine_eq (weighted : Bool) (fetched : List (Answer K d)) (hne : fetched ≠ [])
    (htot : 0 < (fetched.map Answer.numSolutions).sum) (keys : List String) (hk : ∀ a ∈ fetched, a.gradients.map Prod.fst = keys)
    (G : String → Answer K d → Fin d → K) (hG : ∀ k ∈ keys, ∀ a ∈ fetched, HasGrad k a (G k a)) :
    combine weighted fetched = .ok (keys.map fun k => (k, fun j => (fetched.map fun a => weightOf weighted fetched a * G k a j).sum),
      (weightedEvals fetched).map fun t => t / (((fetched.map Answer.numSolutions).sum : Nat) : K)) := by
  cases hf : fetched with
  | nil => exact absurd hf hne
  | cons a l =>
    rw [← hf]
    unfold combine
    conv_lhs => rw [hf]
    simp only
    rw [← hf, if_neg (by omega), hk a (by simp [hf])]
    rw [mapM_ok (g := fun k => (k, fun j => (fetched.map fun a => weightOf weighted fetched a * G k a j).sum))]
    · rfl
    · intro k hkk
      have hzip : ∀ p ∈ (answerWeights weighted fetched).zip fetched, HasGrad k p.2 (G k p.2) := by
        intro p hp
        exact hG k hkk _ (List.of_mem_zip hp).2
      rw [accumulate_eq k _ (G k) hzip]
      simp only [bind, Except.bind, pure, Except.pure]
      congr 2
      funext j
      rw [zero_add]
      exact congrArg List.sum (weights_zip weighted fetched fun w a => w * G k a j)

theorem weightedEvals_eq (fetched : List (Answer K d)) (E : Answer K d → K) (h : ∀ a ∈ fetched, a.meanEval = some (E a)) :
    weightedEvals fetched = some (fetched.map fun a => (a.numSolutions : K) * E a).sum := by
  unfold weightedEvals
  have : ∀ (l : List (Answer K d)) (acc : K), (∀ a ∈ l, a.meanEval = some (E a)) →
      l.foldl (fun acc a => do let t ← acc; let m ← a.meanEval; return t + (a.numSolutions : K) * m) (some acc) =
        some (acc + (l.map fun a => (a.numSolutions : K) * E a).sum) := by
    intro l
    induction l with
    | nil => intro acc _; simp
    | cons a l ih =>
      intro acc hl
      rw [List.foldl_cons, hl a (by simp)]
      refine (ih (acc + (a.numSolutions : K) * E a) fun b hb => hl b (by simp [hb])).trans ?_
      simp [add_assoc]
  simpa using this fetched 0 h

theorem weightedEvals_none (fetched : List (Answer K d)) (h : ∃ a ∈ fetched, a.meanEval = none) : weightedEvals fetched = none := by
  have hnone : ∀ l : List (Answer K d), l.foldl (fun (acc : Option K) (a : Answer K d) => do
      let t ← acc; let m ← a.meanEval; return t + (a.numSolutions : K) * m) none = none := by
    intro l; induction l with
    | nil => rfl
    | cons a l ih => exact ih
  have : ∀ (l : List (Answer K d)) (acc : Option K), (∃ a ∈ l, a.meanEval = none) → l.foldl (fun (acc : Option K) (a : Answer K d) => do
      let t ← acc; let m ← a.meanEval; return t + (a.numSolutions : K) * m) acc = none := by
    intro l
    induction l with
    | nil => rintro acc ⟨a, ha, _⟩; cases ha
    | cons a l ih =>
      rintro acc ⟨a', ha, hm⟩
      rw [List.foldl_cons]
      rcases List.mem_cons.mp ha with rfl | ha
      · rw [hm]
        cases acc <;> exact hnone l
      · exact ih _ ⟨a', ha, hm⟩
  exact this _ _ h

/-- **C55.** For every list of answers (any number of actors, any gradients, vector gradients under the same keys in every answer,
at least one solution): the step succeeds; under every key the combined gradient is the weighted sum of the actors' gradients; the
weights are the shares of solutions (or all equal) and sum to one; and the result is the same for every order in which
the answers arrive. -/
theorem C55_weighted_average [CharZero K] (weighted : Bool) (fetched : List (Answer K d)) (hne : fetched ≠ [])
    (htot : 0 < (fetched.map Answer.numSolutions).sum) (keys : List String) (hk : ∀ a ∈ fetched, a.gradients.map Prod.fst = keys)
    (G : String → Answer K d → Fin d → K) (hG : ∀ k ∈ keys, ∀ a ∈ fetched, HasGrad k a (G k a)) :
    (∃ e, combine weighted fetched =
      .ok (keys.map fun k => (k, fun j => (fetched.map fun a => weightOf weighted fetched a * G k a j).sum), e)) ∧
    (fetched.map (weightOf weighted fetched)).sum = 1 ∧
    (∀ fetched' : List (Answer K d), fetched'.Perm fetched → combine weighted fetched' = combine weighted fetched) := by
  have htot' : (((fetched.map Answer.numSolutions).sum : Nat) : K) ≠ 0 := by exact_mod_cast htot.ne'
  have hlen : (fetched.length : K) ≠ 0 := by
    have : fetched.length ≠ 0 := by simpa using hne
    exact_mod_cast this
  refine ⟨⟨_, combine_eq weighted fetched hne htot keys hk G hG⟩, ?_, ?_⟩
  · unfold weightOf
    cases weighted with
    | false => simp [List.map_const', hlen]
    | true =>
      simp only [if_true]
      have : ∀ l : List (Answer K d), ∀ t : K, (l.map fun a => (a.numSolutions : K) / t).sum = (((l.map Answer.numSolutions).sum : Nat) : K) / t := by
        intro l t
        induction l with
        | nil => simp
        | cons a l ih => simp only [List.map_cons, List.sum_cons, ih]; push_cast; rw [add_div]
      rw [this, div_self htot']
  · intro fetched' hp
    have hsum : (fetched'.map Answer.numSolutions).sum = (fetched.map Answer.numSolutions).sum := (hp.map _).sum_eq
    have hw : weightOf weighted fetched' = weightOf weighted fetched := by
      funext a; unfold weightOf; rw [hsum, hp.length_eq]
    have hev : weightedEvals fetched' = weightedEvals fetched := by
      by_cases hn : ∃ a ∈ fetched, a.meanEval = none
      · rw [weightedEvals_none _ hn, weightedEvals_none]
        obtain ⟨a, ha, h⟩ := hn
        exact ⟨a, hp.mem_iff.mpr ha, h⟩
      · have hE : ∀ a ∈ fetched, a.meanEval = some (a.meanEval.getD 0) := by
          intro a ha
          cases h : a.meanEval with
          | none => exact absurd ⟨a, ha, h⟩ hn
          | some e => rfl
        rw [weightedEvals_eq fetched (fun a => a.meanEval.getD 0) hE,
          weightedEvals_eq fetched' (fun a => a.meanEval.getD 0) fun a ha => hE a (hp.mem_iff.mp ha),
          (hp.map fun a => (a.numSolutions : K) * a.meanEval.getD 0).sum_eq]
    rw [combine_eq weighted fetched hne htot keys hk G hG,
      combine_eq weighted fetched' (by rintro rfl; exact hne (by simpa using hp.symm.eq_nil)) (by rw [hsum]; exact htot) keys
        (fun a ha => hk a (hp.mem_iff.mp ha)) G (fun k hkk a ha => hG k hkk a (hp.mem_iff.mp ha)), hev, hw, hsum]
    congr 2
    apply List.map_congr_left
    intro k _
    rw [Prod.mk.injEq]
    refine ⟨rfl, funext fun j => ?_⟩
    exact (hp.map fun a => weightOf weighted fetched a * G k a j).sum_eq

/-- Non-vacuity: two answers of different sizes in one dimension, over the rationals. -/
example : (combine true ([⟨[("mu", .vec fun _ => 4)], 3, some 1⟩, ⟨[("mu", .vec fun _ => 8)], 1, some 5⟩] : List (Answer ℚ 1))).map
    (fun r => (r.1.map fun p => (p.1, p.2 0), r.2)) = .ok ([("mu", 5)], some 2) := by decide +kernel

theorem sum_map_div' {α : Type} (l : List α) (f : α → K) (c : K) : (l.map f).sum / c = (l.map fun a => f a / c).sum := by
  induction l with
  | nil => simp
  | cons a l ih => simp [add_div, ih]

/-- **C55**, pooling: when each actor's gradient is the mean over its solutions of some per-solution contribution, and no actor has
an empty share, the combined gradient (weighted by the numbers of solutions) is the mean of the contributions over all solutions
of all actors, and the reported `mean_eval` is the mean of all evaluations. -/
theorem C55_pooled [CharZero K] {β : Type} (evals : β → K) (keys : List String) (contribution : String → β → Fin d → K)
    (batches : List (List β)) (hne : batches ≠ []) (hb : ∀ b ∈ batches, b ≠ []) :
    combine true (batches.map (answer evals fun b => keys.map fun k =>
        (k, Grad.vec fun j => (b.map fun x => contribution k x j).sum / (b.length : K)))) =
      .ok (keys.map fun k => (k, fun j => (batches.flatten.map fun x => contribution k x j).sum / (batches.flatten.length : K)),
        some ((batches.flatten.map evals).sum / (batches.flatten.length : K))) := by
  set mk : List β → Answer K d := answer evals fun b => keys.map fun k =>
        (k, Grad.vec fun j => (b.map fun x => contribution k x j).sum / (b.length : K)) with hmk
  have hlk : ∀ (l : List String) (f : String → Grad K d) k, k ∈ l → (l.map fun k => (k, f k)).lookup k = some (f k) := by
    intro l f k hk
    induction l with
    | nil => cases hk
    | cons a l ih =>
      simp only [List.map_cons, List.lookup]
      by_cases h : k = a
      · subst h; simp
      · rw [show (k == a) = false by simpa using h]
        exact ih (by simpa [h] using hk)
  have hns : ((batches.map mk).map Answer.numSolutions).sum = batches.flatten.length := by
    rw [List.map_map, List.length_flatten]; rfl
  have hpos : 0 < batches.flatten.length := by
    cases batches with
    | nil => exact absurd rfl hne
    | cons b bs =>
      have := hb b (by simp)
      have : 0 < b.length := List.length_pos_iff.mpr this
      simp [List.length_flatten]; omega
  have hposK : (batches.flatten.length : K) ≠ 0 := by exact_mod_cast hpos.ne'
  have hkeys : ∀ a ∈ batches.map mk, a.gradients.map Prod.fst = keys := by
    intro a ha
    obtain ⟨b, _, rfl⟩ := List.mem_map.mp ha
    simp [hmk, answer, Function.comp_def]
  set G : String → Answer K d → Fin d → K := fun k a => match a.gradients.lookup k with
    | some (.vec g) => g
    | _ => fun _ => 0 with hGdef
  have hGm : ∀ k ∈ keys, ∀ b, (mk b).gradients.lookup k = some (.vec fun j => (b.map fun x => contribution k x j).sum / (b.length : K)) :=
    fun k hk b => hlk keys (fun k => .vec fun j => (b.map fun x => contribution k x j).sum / (b.length : K)) k hk
  have hGv : ∀ k ∈ keys, ∀ b, G k (mk b) = fun j => (b.map fun x => contribution k x j).sum / (b.length : K) := by
    intro k hk b; simp only [hGdef, hGm k hk b]
  have hG : ∀ k ∈ keys, ∀ a ∈ batches.map mk, HasGrad k a (G k a) := by
    intro k hk a ha
    obtain ⟨b, _, rfl⟩ := List.mem_map.mp ha
    unfold HasGrad
    rw [hGv k hk b, hGm k hk b]
  have hflat : ∀ f : β → K, (batches.map fun b => (b.length : K) * ((b.map f).sum / (b.length : K))).sum = (batches.flatten.map f).sum := by
    intro f
    clear hns hpos hposK hkeys hG hne
    induction batches with
    | nil => simp
    | cons b bs ih =>
      have : (b.length : K) ≠ 0 := by
        have := hb b (by simp)
        exact_mod_cast (List.length_pos_iff.mpr this).ne'
      simp only [List.map_cons, List.sum_cons, List.flatten_cons, List.map_append, List.sum_append]
      rw [ih fun b' h => hb b' (by simp [h]), mul_div_cancel₀ _ this]
  rw [combine_eq true _ (by simpa using hne) (by rw [hns]; exact hpos) keys hkeys G hG]
  rw [weightedEvals_eq _ (fun a => a.meanEval.getD 0)]
  · rw [hns, List.map_map]
    congr 2
    · apply List.map_congr_left
      intro k hk
      rw [Prod.mk.injEq]
      refine ⟨rfl, funext fun j => ?_⟩
      rw [List.map_map, ← hflat, sum_map_div']
      congr 1
      apply List.map_congr_left
      intro b hbm
      simp only [Function.comp, weightOf, if_true, hns, hGv k hk b]
      rw [show (mk b).numSolutions = b.length from rfl]
      ring
    · simp only [Option.map_some]
      congr 2
      rw [← hflat]
      congr 1
      apply List.map_congr_left
      intro b hbm
      have hl : b.length ≠ 0 := by simpa using hb b hbm
      simp [Function.comp, hmk, answer, hl]
  · intro a ha
    obtain ⟨b, hbm, rfl⟩ := List.mem_map.mp ha
    have hl : b.length ≠ 0 := by simpa using hb b hbm
    simp [hmk, answer, hl]

example : (combine true (([[1, 2, 6], [7]] : List (List ℚ)).map (answer (d := 1) id fun b =>
      ["mu"].map fun k => (k, Grad.vec fun _ => (b.map fun x => 2 * x).sum / (b.length : ℚ))))).map
    (fun r => (r.1.map fun p => (p.1, p.2 0), r.2)) = .ok ([("mu", 8)], some 4) := by decide +kernel

/-- **C81 (partial).** When every actor has at least one solution, the `mean_eval` reported by a distributed step is the mean of
all evaluations of all actors, whatever the gradients are. Missing: actors may have empty shares, see
`C81_violated_empty_share`. -/
theorem C81_mean_eval_partial [CharZero K] {β : Type} (weighted : Bool) (evals : β → K) (grads : List β → List (String × Grad K d))
    (batches : List (List β)) (hb : ∀ b ∈ batches, b ≠ []) (g e) (h : combine weighted (batches.map (answer evals grads)) = .ok (g, e)) :
    e = some ((batches.flatten.map evals).sum / (batches.flatten.length : K)) := by
  have hflat : (batches.map fun b => (b.length : K) * ((b.map evals).sum / (b.length : K))).sum = (batches.flatten.map evals).sum := by
    clear h
    induction batches with
    | nil => simp
    | cons b bs ih =>
      have : (b.length : K) ≠ 0 := by
        have := hb b (by simp)
        exact_mod_cast (List.length_pos_iff.mpr this).ne'
      simp only [List.map_cons, List.sum_cons, List.flatten_cons, List.map_append, List.sum_append]
      rw [ih fun b' h => hb b' (by simp [h]), mul_div_cancel₀ _ this]
  have hwe : weightedEvals (batches.map (answer evals grads)) = some (batches.flatten.map evals).sum := by
    rw [weightedEvals_eq _ (fun a => a.meanEval.getD 0)]
    · rw [← hflat, List.map_map]
      congr 2
      apply List.map_congr_left
      intro b hbm
      have hl : b.length ≠ 0 := by simpa using hb b hbm
      simp [Function.comp, answer, hl]
    · intro a ha
      obtain ⟨b, hbm, rfl⟩ := List.mem_map.mp ha
      have hl : b.length ≠ 0 := by simpa using hb b hbm
      simp [answer, hl]
  have hns : ((batches.map (answer evals grads)).map Answer.numSolutions).sum = batches.flatten.length := by
    rw [List.map_map, List.length_flatten]; rfl
  unfold combine at h
  split at h
  · cases h
  · rename_i hcons
    simp only at h
    split at h
    · cases h
    · simp only [bind, Except.bind, pure, Except.pure, ← hcons, hwe, Option.map_some, hns] at h
      split at h
      · cases h
      · injection h with h; injection h with _ h; exact h.symm

example : ((combine false (([[1, 2, 6], [7]] : List (List ℚ)).map (answer (d := 1) id fun _ => []))).map (fun r => r.2)) =
    .ok (some 4) := by decide +kernel

/-- **C80 (partial).** A distributed step succeeds whenever all gradients are vectors (PGPE, SNES and CEM). Missing: matrix
gradients, see `C80_violated_matrix_gradient`. -/
theorem C80_vector_gradients_partial (weighted : Bool) (fetched : List (Answer K d)) (hne : fetched ≠ [])
    (htot : 0 < (fetched.map Answer.numSolutions).sum) (keys : List String) (hk : ∀ a ∈ fetched, a.gradients.map Prod.fst = keys)
    (hG : ∀ k ∈ keys, ∀ a ∈ fetched, ∃ g, HasGrad k a g) : ∃ r, combine weighted fetched = .ok r := by
  classical
  refine ⟨_, combine_eq weighted fetched hne htot keys hk (fun k a => if h : ∃ g, HasGrad k a g then h.choose else fun _ => 0) ?_⟩
  intro k hk a ha
  have h := hG k hk a ha
  simp only [h, dif_pos]
  exact h.choose_spec

example : (combine true ([⟨[("mu", .vec fun _ => 4)], 3, some 1⟩] : List (Answer ℚ 1))).map (fun r => r.2) = .ok (some 1) := by
  decide +kernel

/-- **C81, violated** by empty shares: with fewer solutions than actors (and no sub-batch settings) some actor is asked for zero
solutions, and the reported `mean_eval` is NaN whatever the other actors answer. -/
theorem C81_violated_empty_share (popsize numActors : Nat) (h : popsize < numActors) :
    ∃ reqs, request popsize none none none none numActors false = .ok reqs ∧ (∃ r ∈ reqs, r.1 = 0) ∧
    ∀ {β : Type} (batches : List (List β)) (evals : β → K) (grads : List β → List (String × Grad K d)) (weighted : Bool),
      List.Forall₂ (fun (t : Nat × Option Nat × Option Nat) (b : List β) => b.length = t.1) reqs batches →
      ∀ g e, combine weighted (batches.map (answer evals grads)) = .ok (g, e) → e = none := by
  have hn : numActors ≠ 0 := by omega
  have hreq : request popsize none none none none numActors false =
      .ok ((incrementFirst (popsize % numActors) (List.replicate numActors (popsize / numActors))).map fun n => (n, none, none)) := by
    simp [request, hn, tasks, popsizePerTask, taskSizes, splitWorkload, bind, Except.bind, pure, Except.pure]
  refine ⟨_, hreq, ?_, ?_⟩
  · refine ⟨(0, none, none), ?_, rfl⟩
    rw [List.mem_map]
    refine ⟨0, ?_, rfl⟩
    rw [fair_split _ _ (by omega), Nat.mod_eq_of_lt h, Nat.div_eq_of_lt h]
    simp; omega
  · intro β batches evals grads weighted hf g e hc
    have hzero : ∃ b ∈ batches, b.length = 0 := by
      have hr : (0, none, none) ∈ (incrementFirst (popsize % numActors) (List.replicate numActors (popsize / numActors))).map
          fun n => ((n, none, none) : Nat × Option Nat × Option Nat) := by
        rw [List.mem_map]
        refine ⟨0, ?_, rfl⟩
        rw [fair_split _ _ (by omega), Nat.mod_eq_of_lt h, Nat.div_eq_of_lt h]
        simp; omega
      clear hreq hc
      revert hf hr
      generalize (incrementFirst (popsize % numActors) (List.replicate numActors (popsize / numActors))).map
          (fun n => ((n, none, none) : Nat × Option Nat × Option Nat)) = reqs
      intro hf hr
      induction hf with
      | nil => cases hr
      | cons hh _ ih =>
        rcases List.mem_cons.mp hr with h1 | h1
        · subst h1; exact ⟨_, by simp, hh⟩
        · obtain ⟨b, hb, hl⟩ := ih h1; exact ⟨b, by simp [hb], hl⟩
    have hwe : weightedEvals (batches.map (answer evals grads)) = none := by
      obtain ⟨b, hb, hl⟩ := hzero
      exact weightedEvals_none _ ⟨answer evals grads b, List.mem_map.mpr ⟨b, hb, rfl⟩, by simp [answer, hl]⟩
    unfold combine at hc
    split at hc
    · cases hc
    · rename_i hcons
      simp only at hc
      split at hc
      · cases hc
      · simp only [bind, Except.bind, pure, Except.pure, ← hcons, hwe, Option.map_none] at hc
        split at hc
        · cases hc
        · injection hc with hc; injection hc with _ hc; exact hc.symm

example : request 1 none none none none 2 false = .ok [(1, none, none), (0, none, none)] := rfl

/-- **C80, violated** by XNES: an answer with a matrix gradient (the `M` of XNES) makes every distributed step fail. -/
theorem C80_violated_matrix_gradient (weighted : Bool) (fetched : List (Answer K d)) (first : Answer K d)
    (rest : List (Answer K d)) (hf : fetched = first :: rest) (key : String) (m) (hm : (key, Grad.mat m) ∈ first.gradients)
    (hnd : (first.gradients.map Prod.fst).Nodup) : ∃ e, combine weighted fetched = .error e := by
  subst hf
  unfold combine
  simp only
  split
  · exact ⟨_, rfl⟩
  · have hlk : ∀ l : List (String × Grad K d), (l.map Prod.fst).Nodup → (key, Grad.mat m) ∈ l → l.lookup key = some (.mat m) := by
      intro l
      induction l with
      | nil => intro _ h; cases h
      | cons p l ih =>
        intro hnd h
        obtain ⟨k', v⟩ := p
        simp only [List.lookup]
        rcases List.mem_cons.mp h with h | hl
        · simp only [Prod.mk.injEq] at h
          obtain ⟨rfl, rfl⟩ := h; simp
        · have : key ≠ k' := by
            rintro rfl
            simp only [List.map_cons, List.nodup_cons] at hnd
            exact hnd.1 (List.mem_map.mpr ⟨(key, Grad.mat m), hl, rfl⟩)
          rw [show (key == k') = false by simpa using this]
          exact ih (List.nodup_cons.mp hnd).2 hl
    have hl := hlk _ hnd hm
    have hmem : key ∈ first.gradients.map Prod.fst := List.mem_map.mpr ⟨_, hm, rfl⟩
    have hfail : ∀ (ks : List String) (f : String → Except PyErr (String × (Fin d → K))), key ∈ ks → (∃ e, f key = .error e) →
        ∃ e, ks.mapM f = .error e := by
      intro ks f
      induction ks with
      | nil => intro h; cases h
      | cons k ks ih =>
        intro h he
        rw [List.mapM_cons]
        rcases List.mem_cons.mp h with rfl | h
        · obtain ⟨e, he⟩ := he; exact ⟨e, by rw [he]; rfl⟩
        · obtain ⟨e', he'⟩ := ih h he
          cases hk : f k with
          | error e => exact ⟨e, rfl⟩
          | ok v => exact ⟨e', by rw [he']; rfl⟩
    obtain ⟨e, he⟩ := hfail _ (fun key => do
        let g ← accumulate key ((answerWeights weighted (first :: rest)).zip (first :: rest)) fun _ => 0
        return (key, g)) hmem ⟨.runtimeError, by simp [answerWeights, accumulate, hl, bind, Except.bind]⟩
    exact ⟨e, by rw [he]; rfl⟩

example : (combine true ([⟨[("d", .vec fun _ => 1), ("M", .mat fun _ _ => 1)], 4, some 1⟩] : List (Answer ℚ 1))).map (fun r => r.2) =
    .error .runtimeError := by decide +kernel

end EvoTorch.GradSampling
