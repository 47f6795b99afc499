import Verif.Model.EnvPool
import Verif.Props.Workload
/-!
C118: the number of environments of a vectorised reinforcement-learning problem stays within `max_num_envs`, without affecting the fitnesses.
-/
namespace EvoTorch.EnvPool
open EvoTorch EvoTorch.Workload

/-- The environment maker returns what it is asked for. -/
def Faithful (built : ℕ → ℕ) : Prop := ∀ n, built n = n

/-- The remembered number of environments is that of the environment, which is within `B`. -/
def Fits (B : ℕ) (v : Vec) : Prop := v.env = v.numEnvs ∧ v.env.getD 0 ≤ B

variable {X F : Type}

theorem getEnv_ok {built : ℕ → ℕ} (hb : Faithful built) {B : ℕ} {v : Vec} (hv : Fits B v) {n : ℕ} (hn : n ≤ B) :
    ∃ e, (getEnv built v n).result = .ok e ∧ n ≤ e ∧ e ≤ B ∧ (getEnv built v n).state = { v with env := some e, numEnvs := some e } := by
  obtain ⟨h1, h2⟩ := hv
  obtain ⟨env, numEnvs, mx, am, rd⟩ := v
  simp only at h1 h2
  subst h1
  cases env with
  | none => exact ⟨n, by simp [getEnv, hb n], Nat.le_refl _, hn, by simp [getEnv, hb n]⟩
  | some k =>
    simp only [Option.getD_some] at h2
    by_cases hk : n > k
    · exact ⟨n, by simp [getEnv, hb n, hk], Nat.le_refl _, hn, by simp [getEnv, hb n, hk]⟩
    · exact ⟨k, by simp [getEnv, hk], by omega, h2, by simp [getEnv, hk]⟩

theorem pieces_ok {built : ℕ → ℕ} (hb : Faithful built) (fitness : X → F) {B : ℕ} : ∀ (ps : List (List X)) (v : Vec), Fits B v → (∀ p ∈ ps, p.length ≤ B) →
    ∃ sizes, (evaluatePieces built fitness v ps).result = .ok (ps.flatten.map fitness, sizes) ∧ (∀ s ∈ sizes, s ≤ B) ∧ Fits B (evaluatePieces built fitness v ps).state ∧
      (evaluatePieces built fitness v ps).state.actorMax = v.actorMax ∧ (evaluatePieces built fitness v ps).state.ready = v.ready ∧
      (evaluatePieces built fitness v ps).state.maxNumEnvs = v.maxNumEnvs ∧ List.Forall₂ (fun p s => p.length ≤ s) ps sizes := by
  intro ps
  induction ps with
  | nil => intro v hv _; exact ⟨[], rfl, by simp, hv, rfl, rfl, rfl, .nil⟩
  | cons p ps ih =>
    intro v hv hp
    obtain ⟨e, h1, h2, h3, h4⟩ := getEnv_ok hb hv (hp p List.mem_cons_self)
    have hs : evaluateSubbatch built fitness v p = ⟨{ v with env := some e, numEnvs := some e }, .ok (p.map fitness)⟩ := by
      simp only [evaluateSubbatch, h1, h4, if_pos h2]
    obtain ⟨sizes, g1, g2, g3, g4, g5, g6, g7⟩ := ih { v with env := some e, numEnvs := some e } ⟨rfl, h3⟩ fun q hq => hp q (List.mem_cons_of_mem _ hq)
    refine ⟨e :: sizes, ?_, ?_, ?_⟩
    · simp only [evaluatePieces, hs, g1, List.flatten_cons, List.map_append, Option.getD_some]
    · intro s hs'
      rcases List.mem_cons.1 hs' with rfl | hs'
      · exact h3
      · exact g2 s hs'
    · simp only [evaluatePieces, hs, g1]
      exact ⟨g3, g4, g5, g6, .cons h2 g7⟩

/-- A main problem without actors whose limit, if settled, is that of the user. -/
def Settled (v : Vec) : Prop := v.ready = true → v.actorMax = v.maxNumEnvs

theorem settle_spec (v : Vec) (hs : Settled v) : (settle v).actorMax = v.maxNumEnvs ∧ (settle v).maxNumEnvs = v.maxNumEnvs ∧ (settle v).ready = true ∧
    (settle v).env = v.env ∧ (settle v).numEnvs = v.numEnvs := by
  unfold settle
  split
  · next h => exact ⟨hs h, rfl, h, rfl, rfl⟩
  · exact ⟨rfl, rfl, rfl, rfl, rfl⟩

/-- One evaluation: `B` is the limit, or the size of the batch if there is none. -/
theorem evaluate_ok {built : ℕ → ℕ} (hb : Faithful built) (fitness : X → F) {B : ℕ} (v : Vec) (hv : Fits B v) (hs : Settled v) (rows : List X)
    (hB : v.maxNumEnvs = some B ∧ 0 < B ∨ v.maxNumEnvs = none ∧ rows.length ≤ B) :
    ∃ sizes, (evaluate built fitness v rows).result = .ok (rows.map fitness, sizes) ∧ (∀ s ∈ sizes, s ≤ B) ∧ Fits B (evaluate built fitness v rows).state ∧
      Settled (evaluate built fitness v rows).state ∧ (evaluate built fitness v rows).state.maxNumEnvs = v.maxNumEnvs := by
  obtain ⟨a1, a2, a3, a4, a5⟩ := settle_spec v hs
  have hf : Fits B (settle v) := ⟨by rw [a4, a5]; exact hv.1, by rw [a4]; exact hv.2⟩
  unfold evaluate evaluateBatch
  rcases hB with ⟨hm, h0⟩ | ⟨hm, hr⟩
  · obtain ⟨-, sizes, h1, h2, h3⟩ := C09_split_partitions rows 1 B Nat.one_pos h0
    rw [a1, hm]
    simp only [h1]
    obtain ⟨ss, g1, g2, g3, g4, g5, g6, -⟩ := pieces_ok hb fitness (pieces rows sizes) (settle v) hf fun p hp => by
      have : p.length ∈ sizes := by rw [← h3.sizes]; exact List.mem_map_of_mem hp
      exact (h2.size _ this).2
    rw [h3.cover] at g1
    exact ⟨ss, g1, g2, g3, fun _ => by rw [g4, g6, a1, a2], by rw [g6, a2, hm]⟩
  · rw [a1, hm]
    simp only
    obtain ⟨ss, g1, g2, g3, g4, g5, g6, -⟩ := pieces_ok hb fitness [rows] (settle v) hf (by simpa using hr)
    exact ⟨ss, by simpa using g1, g2, g3, fun _ => by rw [g4, g6, a1, a2], by rw [g6, a2, hm]⟩

/-- **C118 (limit).** Without actors: whatever batches are evaluated, one after the other, by a problem with `max_num_envs = m ≥ 1`, every solution gets its own fitness, in order, and at no time are
there more than `m` sub-environments. -/
theorem C118_within_limit_partial {built : ℕ → ℕ} (hb : Faithful built) (fitness : X → F) (m : ℕ) (hm : 0 < m) (batches : List (List X)) :
    ∃ sizes, (evaluateAll built fitness { maxNumEnvs := some m } batches).result = .ok (batches.map fun b => b.map fitness, sizes) ∧ (∀ s ∈ sizes, s ≤ m) ∧
      (evaluateAll built fitness { maxNumEnvs := some m } batches).state.env.getD 0 ≤ m := by
  have key : ∀ (batches : List (List X)) (v : Vec), Fits m v → Settled v → v.maxNumEnvs = some m →
      ∃ sizes, (evaluateAll built fitness v batches).result = .ok (batches.map fun b => b.map fitness, sizes) ∧ (∀ s ∈ sizes, s ≤ m) ∧
        (evaluateAll built fitness v batches).state.env.getD 0 ≤ m := by
    intro batches
    induction batches with
    | nil => intro v hv _ _; exact ⟨[], rfl, by simp, hv.2⟩
    | cons b bs ih =>
      intro v hv hs hmx
      obtain ⟨s1, g1, g2, g3, g4, g5⟩ := evaluate_ok hb fitness v hv hs b (.inl ⟨hmx, hm⟩)
      obtain ⟨s2, k1, k2, k3⟩ := ih _ g3 g4 (by rw [g5, hmx])
      refine ⟨s1 ++ s2, by simp only [evaluateAll, g1, k1, List.map_cons], ?_, by simp only [evaluateAll, g1, k1]; exact k3⟩
      intro s hs'
      rcases List.mem_append.1 hs' with h | h
      · exact g2 s h
      · exact k2 s h
  exact key batches _ ⟨rfl, by simp⟩ (by intro h; cases h) rfl

/-- **C118 (no limit).** Without a limit there are never more sub-environments than solutions in the largest batch so far; every solution gets its own fitness. -/
theorem C118_no_limit {built : ℕ → ℕ} (hb : Faithful built) (fitness : X → F) (batches : List (List X)) (B : ℕ) (hB : ∀ b ∈ batches, b.length ≤ B) :
    ∃ sizes, (evaluateAll built fitness { maxNumEnvs := none } batches).result = .ok (batches.map fun b => b.map fitness, sizes) ∧ (∀ s ∈ sizes, s ≤ B) := by
  have key : ∀ (batches : List (List X)) (v : Vec), (∀ b ∈ batches, b.length ≤ B) → Fits B v → Settled v → v.maxNumEnvs = none →
      ∃ sizes, (evaluateAll built fitness v batches).result = .ok (batches.map fun b => b.map fitness, sizes) ∧ (∀ s ∈ sizes, s ≤ B) := by
    intro batches
    induction batches with
    | nil => intro v _ hv _ _; exact ⟨[], rfl, by simp⟩
    | cons b bs ih =>
      intro v hle hv hs hmx
      obtain ⟨s1, g1, g2, g3, g4, g5⟩ := evaluate_ok hb fitness v hv hs b (.inr ⟨hmx, hle b List.mem_cons_self⟩)
      obtain ⟨s2, k1, k2⟩ := ih _ (fun b hb => hle b (List.mem_cons_of_mem _ hb)) g3 g4 (by rw [g5, hmx])
      refine ⟨s1 ++ s2, by simp only [evaluateAll, g1, k1, List.map_cons], ?_⟩
      intro s hs'
      rcases List.mem_append.1 hs' with h | h
      · exact g2 s h
      · exact k2 s h
  exact key batches _ hB ⟨rfl, by simp⟩ (by intro h; cases h) rfl

/-- **C118 (reuse).** An environment which is large enough is used again; a larger one replaces it only when more solutions have to be simulated at once. -/
theorem C118_reuse (built : ℕ → ℕ) (v : Vec) (k n : ℕ) (h1 : v.env = some k) (h2 : v.numEnvs = some k) :
    (n ≤ k → getEnv built v n = ⟨v, .ok k⟩) ∧ (k < n → built n = n → getEnv built v n = ⟨{ v with env := some n, numEnvs := some n }, .ok n⟩) := by
  refine ⟨fun h => ?_, fun h hb => ?_⟩
  · simp only [getEnv, h1, h2, if_neg (by omega : ¬ n > k)]
  · simp [getEnv, h1, h2, h, hb]

/-- **C118 (unfaithful maker).** If the maker returns another number of sub-environments than asked for, the evaluation is refused with a ValueError. -/
theorem C118_unfaithful (built : ℕ → ℕ) (fitness : X → F) (rows : List X) (h : built rows.length ≠ rows.length) :
    (evaluate built fitness { maxNumEnvs := none } rows).result = .error .valueError := by
  simp [evaluate, evaluateBatch, settle, evaluatePieces, evaluateSubbatch, getEnv, h]

/-! ### With actors -/

theorem tell_lazy : ∀ (as : List Vec) (ss : List ℕ), tellActors false as ss = ⟨as, .ok ()⟩ := by
  intro as
  induction as with
  | nil => intro ss; cases ss <;> rfl
  | cons a as ih =>
    intro ss
    cases ss with
    | nil => rfl
    | cons s ss => simp [tellActors, remoteCall, ih]

theorem tell_eager (a : Vec) (as : List Vec) (s : ℕ) (ss : List ℕ) : tellActors true (a :: as) (s :: ss) = ⟨a :: as, .error .typeError⟩ := by
  simp [tellActors, remoteCall]

theorem actors_sizes {built : ℕ → ℕ} (hb : Faithful built) (fitness : X → F) : ∀ (as : List Vec) (ps : List (List X)), as.length = ps.length →
    (∀ a ∈ as, a.env = none ∧ a.numEnvs = none ∧ a.actorMax = none) → totalEnvs (evaluateActors built fitness as ps) = (ps.map List.length).sum := by
  intro as
  induction as with
  | nil => intro ps h _; cases ps with
    | nil => rfl
    | cons p ps => simp at h
  | cons a as ih =>
    intro ps h ha
    cases ps with
    | nil => simp at h
    | cons p ps =>
      obtain ⟨h1, h2, h3⟩ := ha a List.mem_cons_self
      have hrest := ih ps (by simpa using h) fun b hb => ha b (List.mem_cons_of_mem _ hb)
      have he : (evaluateBatch built fitness a p).state.env = some p.length := by
        simp [evaluateBatch, h3, evaluatePieces, evaluateSubbatch, getEnv, h1, hb p.length]
      simp only [totalEnvs] at hrest
      simp only [evaluateActors, totalEnvs, List.map_cons, List.sum_cons, he, Option.getD_some, hrest]

/-- **C118 (violated with actors).** With two or more actors the limit never reaches them, because the remote call lacks an argument. If ray checks arguments when the call is made, no evaluation is
possible at all: settling raises a TypeError every time. Otherwise the limit is ignored: a population given in pieces to the actors makes as many sub-environments as it has solutions. -/
theorem C118_violated_actors {built : ℕ → ℕ} (hb : Faithful built) (fitness : X → F) (m : ℕ) (as : List Vec) (has : as ≠ [])
    (hf : ∀ a ∈ as, a.env = none ∧ a.numEnvs = none ∧ a.actorMax = none) :
    ((settleMain true ⟨{ maxNumEnvs := some m }, as⟩).result = .error .typeError ∧ (settleMain true ⟨{ maxNumEnvs := some m }, as⟩).state = ⟨{ maxNumEnvs := some m }, as⟩) ∧
    totalEnvs as = 0 ∧
    ((settleMain false ⟨{ maxNumEnvs := some m }, as⟩).result = .ok () ∧ ∀ ps : List (List X), as.length = ps.length →
      totalEnvs (evaluateActors built fitness (settleMain false ⟨{ maxNumEnvs := some m }, as⟩).state.actors ps) = ps.flatten.length) := by
  obtain ⟨l, h1, h2⟩ := C08_split_workload_fair m as.length (List.length_pos_iff.2 has)
  refine ⟨?_, ?_, ?_⟩
  · cases as with
    | nil => exact absurd rfl has
    | cons a as =>
      cases l with
      | nil => simpa using h2.length
      | cons s ss =>
        simp only [settleMain, Bool.false_eq_true, if_false, h1, tell_eager, and_self]
  · rw [totalEnvs, List.sum_eq_zero]
    intro x hx
    obtain ⟨a, ha, rfl⟩ := List.mem_map.1 hx
    rw [(hf a ha).1]; rfl
  · have hs : settleMain false ⟨{ maxNumEnvs := some m }, as⟩ = ⟨⟨{ maxNumEnvs := some m, ready := true }, as⟩, .ok ()⟩ := by
      simp only [settleMain, Bool.false_eq_true, if_false, h1, tell_lazy]
    rw [hs]
    refine ⟨rfl, fun ps hl => ?_⟩
    rw [actors_sizes hb fitness as ps hl hf, List.length_flatten]

/-- The limit 2 with two actors and ten solutions: ten sub-environments. -/
example : totalEnvs (evaluateActors (fun n => n) (fun x : ℕ => x) (settleMain false ⟨{ maxNumEnvs := some 2 }, [{ maxNumEnvs := some 2 }, { maxNumEnvs := some 2 }]⟩).state.actors
    [[1, 2, 3, 4, 5], [6, 7, 8, 9, 10]]) = 10 := rfl

/-- The limit 3 without actors: two batches, with the sizes of the environment during the evaluation. -/
example : (evaluateAll (fun n => n) (fun x : ℕ => 10 * x) { maxNumEnvs := some 3 } [[1, 2], [3, 4, 5, 6], [7]]).result =
    .ok ([[10, 20], [30, 40, 50, 60], [70]], [2, 3, 3, 3]) := rfl
example : Faithful (fun n => n) := fun _ => rfl

/-! ### The device of the simulator -/

/-- **C118 (simulator device).** With numeric arguments the sub-environments run on the device of the problem if that is not the cpu; otherwise on the device of the actor if there are several actors with
GPUs; otherwise the choice is left open. -/
theorem C118_simulator_device_partial (deviceIsCpu : Bool) (n g : ℚ) :
    simDevice deviceIsCpu (.num n) (.num g) = .ok (if deviceIsCpu = false then .given else if n > 1 ∧ g > 0 then .aux else .unset) ∧
    simDevice deviceIsCpu .none (.num g) = .ok (if deviceIsCpu = false then .given else .unset) ∧
    simDevice deviceIsCpu (.num n) .none = .ok (if deviceIsCpu = false then .given else .unset) := by
  refine ⟨?_, ?_, ?_⟩ <;> cases deviceIsCpu <;> by_cases h1 : n > 1 <;> by_cases h2 : g > 0 <;>
    simp [simDevice, actorsUseGpu, Val.gt, h1, h2, bind, Except.bind, pure, Except.pure]

/-- **C118 (violated for named numbers of actors).** The documented strings ("max", "num_cpus", "num_gpus", "num_devices"), and any other string, as `num_actors` make the constructor raise a TypeError. -/
theorem C118_violated_named_actors (deviceIsCpu : Bool) (s : String) (g : Val) : simDevice deviceIsCpu (.str s) g = .error .typeError := by
  simp [simDevice, actorsUseGpu, Val.gt, bind, Except.bind]

end EvoTorch.EnvPool
