import Verif.Model.GymRun
import Mathlib.Algebra.BigOperators.Group.List.Basic
import Mathlib.Tactic.Ring
import Mathlib.Algebra.Field.Rat
import Mathlib.Data.Rat.Defs
/-!
C138: running a policy plays whole episodes, returns the average return, and changes the counters and statistics of the problem exactly if it is asked to.
-/
namespace EvoTorch.GymRun
open EvoTorch

variable {E H O A K G : Type}

/-! ### Specification -/

/-- What the policy is shown for an observation, given the observations in the statistics. -/
def shown (c : Settings O K) (seen : List O) (raw : O) : O := if c.norm then c.normalize seen raw else raw

/-- The observations in the statistics after one more observation. -/
def seenAfter (c : Settings O K) (update : Bool) (seen : List O) (raws : List O) : List O := if c.norm = true ∧ update = true then seen ++ raws else seen

/-- The policy (in state `h`, being shown `o`) plays these steps in the environment (in state `e`): in every step it chooses an action, noise is added, and the environment gives the next observation, a
reward and whether the episode is over. -/
inductive Plays (env : Env E O A K) (p : Policy H O A G) (c : Settings O K) (update : Bool) : E → H → O → G → List O → List (O × K × Bool) → E → H → G → Prop
  | nil (e : E) (h : H) (o : O) (g : G) (seen : List O) : Plays env p c update e h o g seen [] e h g
  | cons (e e' e'' : E) (h h' h'' : H) (o raw : O) (g g' g'' : G) (a a' : A) (r : K) (done : Bool) (seen : List O) (steps : List (O × K × Bool)) :
      p.act h o = (h', a) → p.noise g a = (g', a') → env.step e a' = (e', raw, r, done) →
      Plays env p c update e' h' (shown c (seenAfter c update seen [raw]) raw) g' (seenAfter c update seen [raw]) steps e'' h'' g'' →
      Plays env p c update e h o g seen ((raw, r, done) :: steps) e'' h'' g''

/-- The episode ends with the first step in which the environment says so or with which the episode has the maximal length. -/
def Ends (c : Settings O K) (t : ℕ) (steps : List (O × K × Bool)) : Prop :=
  steps ≠ [] ∧ ∀ i r, steps[i]? = some r → ((r.2.2 = true ∨ ∃ l, c.episodeLength = some l ∧ l ≤ t + i + 1) ↔ i + 1 = steps.length)

/-! ### Episodes -/

theorem over_iff (c : Settings O K) (done : Bool) (t : ℕ) : over c done t = true ↔ done = true ∨ ∃ l, c.episodeLength = some l ∧ l ≤ t := by
  unfold over
  cases h : c.episodeLength <;> simp

theorem normalizeObs_eq (c : Settings O K) (update : Bool) (s : St E O G H) (x : O) :
    normalizeObs c update s x = ({ s with obs := seenAfter c update s.obs [x], collected := seenAfter c update s.collected [x] }, shown c (seenAfter c update s.obs [x]) x) := by
  unfold normalizeObs seenAfter shown
  cases c.norm <;> cases update <;> simp

theorem seenAfter_append (c : Settings O K) (update : Bool) (seen l m : List O) : seenAfter c update (seenAfter c update seen l) m = seenAfter c update seen (l ++ m) := by
  unfold seenAfter
  split <;> simp

theorem loop_spec [Field K] (env : Env E O A K) (p : Policy H O A G) (c : Settings O K) (update : Bool) (dec : K) (fuel : ℕ) : ∀ (t : ℕ) (acc : K) (e : E) (h : H) (o : O) (s s' : St E O G H) (e' : E) (ret : K) (n : ℕ),
    loop env p c update dec fuel t acc e h o s = some (s', e', ret, n) →
    ∃ steps, Plays env p c update e h o s.gen s.obs steps e' s'.pol s'.gen ∧ Ends c t steps ∧ ret = acc + (steps.map fun r => r.2.1 - dec).sum ∧ n = t + steps.length ∧
      s'.interactions = s.interactions + (if update then steps.length else 0) ∧ s'.episodes = s.episodes + (if update then 1 else 0) ∧
      s'.obs = seenAfter c update s.obs (steps.map (·.1)) ∧ s'.collected = seenAfter c update s.collected (steps.map (·.1)) ∧ s'.env = s.env := by
  induction fuel with
  | zero => intro t acc e h o s s' e' ret n hl; cases hl
  | succ fuel ih =>
    intro t acc e h o s s' e' ret n hl
    rcases ha : p.act h o with ⟨h1, a⟩
    rcases hn : p.noise s.gen a with ⟨g1, a1⟩
    rcases hs : env.step e a1 with ⟨e1, raw, r, done⟩
    simp only [loop, ha, hn, hs, normalizeObs_eq] at hl
    split at hl
    · rename_i hover
      rw [over_iff] at hover
      obtain ⟨rfl, rfl, rfl, rfl⟩ := by simpa using hl
      refine ⟨[(raw, r, done)], Plays.cons e e1 e1 h h1 h1 o raw s.gen g1 g1 a a1 r done s.obs [] ha hn hs (Plays.nil _ _ _ _ _), ⟨by simp, ?_⟩, by simp, by simp, ?_, ?_, by simp, by simp, rfl⟩
      · intro i x hx
        cases i with
        | zero =>
          simp only [List.getElem?_cons_zero, Option.some.injEq] at hx
          subst hx
          simpa using hover
        | succ i => simp at hx
      · cases update <;> simp
      · cases update <;> simp
    · rename_i hover
      rw [over_iff] at hover
      obtain ⟨steps, q1, q2, q3, q4, q5, q6, q7, q8, q9⟩ := ih _ _ _ _ _ _ _ _ _ _ hl
      refine ⟨(raw, r, done) :: steps, Plays.cons e e1 e' h h1 s'.pol o raw s.gen g1 s'.gen a a1 r done s.obs steps ha hn hs q1, ⟨by simp, ?_⟩, ?_, ?_, ?_, ?_, ?_, ?_, q9⟩
      · intro i x hx
        cases i with
        | zero =>
          simp only [List.getElem?_cons_zero, Option.some.injEq] at hx
          subst hx
          constructor
          · intro hh; exact absurd (by simpa using hh) hover
          · intro hh
            have : steps.length = 0 := by simpa using hh.symm
            exact absurd (List.length_eq_zero_iff.1 this) q2.1
        | succ i =>
          simp only [List.getElem?_cons_succ] at hx
          have := q2.2 i x hx
          rw [List.length_cons, show t + (i + 1) + 1 = t + 1 + i + 1 by omega, this]
          omega
      · rw [q3]; simp only [List.map_cons, List.sum_cons]; ring
      · rw [q4]; simp only [List.length_cons]; omega
      · rw [q5]; cases update <;> simp; omega
      · rw [q6]
      · rw [q7]; simp only [seenAfter_append, List.map_cons, List.singleton_append]
      · rw [q8]; simp only [seenAfter_append, List.map_cons, List.singleton_append]

/-- C138: one episode. The policy is reset and starts in a freshly reset environment (that of the problem, or for a visualisation a new one) and plays until the environment ends the episode or
the maximal length is reached. The return is the sum of the rewards, each decreased as asked. If statistics are to be updated, the counters grow by the number of steps and by one episode, and exactly the
observations of this episode, the first one included, are added to the statistics (if observations are normalised); otherwise counters and statistics stay as they are. -/
theorem C138_episode [Field K] (env : Env E O A K) (p : Policy H O A G) (c : Settings O K) (fuel : ℕ) (update visualize : Bool) (decrease : Option K) (s s' : St E O G H) (ret : K) (n : ℕ)
    (hr : rollout env p c fuel update visualize decrease s = some (s', ret, n)) :
    ∃ e first e' steps, env.reset (if visualize then env.fresh else (s.env.getD env.fresh)) = (e, first) ∧
      Plays env p c update e (p.reset s.pol) (shown c (seenAfter c update s.obs [first]) first) s.gen (seenAfter c update s.obs [first]) steps e' s'.pol s'.gen ∧ Ends c 0 steps ∧
      ret = (steps.map fun r => r.2.1 - decrease.getD c.decrease).sum ∧ n = steps.length ∧
      s'.interactions = s.interactions + (if update then n else 0) ∧ s'.episodes = s.episodes + (if update then 1 else 0) ∧
      s'.obs = seenAfter c update s.obs (first :: steps.map (·.1)) ∧ s'.collected = seenAfter c update s.collected (first :: steps.map (·.1)) ∧
      s'.env = some (if visualize then s.env.getD env.fresh else e') := by
  rcases hres : env.reset (if visualize then env.fresh else getEnv env s) with ⟨e, first⟩
  simp only [rollout, hres, normalizeObs_eq, Option.map_eq_some_iff] at hr
  obtain ⟨⟨s1, e', ret', n'⟩, h1, h2⟩ := hr
  obtain ⟨rfl, rfl, rfl⟩ := by simpa using h2
  obtain ⟨steps, q1, q2, q3, q4, q5, q6, q7, q8, q9⟩ := loop_spec env p c update _ fuel _ _ _ _ _ _ _ _ _ _ h1
  refine ⟨e, first, e', steps, hres, q1, q2, by rw [q3]; simp, by rw [q4]; simp, ?_, q6, ?_, ?_, rfl⟩
  · rw [q5, q4]; simp
  · rw [q7]; simp only [seenAfter_append, List.singleton_append]
  · rw [q8]; simp only [seenAfter_append, List.singleton_append]

/-- C138: with a maximal length of episodes every episode ends, after at most so many steps (and after one, if the maximal length is zero), in every environment. -/
theorem C138_terminates [Field K] (env : Env E O A K) (p : Policy H O A G) (c : Settings O K) (l : ℕ) (hl : c.episodeLength = some l) (update visualize : Bool) (decrease : Option K) (s : St E O G H) :
    ∃ r, rollout env p c (max 1 l) update visualize decrease s = some r ∧ 1 ≤ r.2.2 ∧ r.2.2 ≤ max 1 l := by
  have key : ∀ fuel t acc e h o (s : St E O G H), 0 < fuel → l ≤ t + fuel → ∃ r, loop env p c update (decrease.getD c.decrease) fuel t acc e h o s = some r := by
    intro fuel
    induction fuel with
    | zero => intro t acc e h o s hf; omega
    | succ fuel ih =>
      intro t acc e h o s _ hle
      rcases ha : p.act h o with ⟨h1, a⟩
      rcases hn : p.noise s.gen a with ⟨g1, a1⟩
      rcases hs : env.step e a1 with ⟨e1, raw, r, done⟩
      simp only [loop, ha, hn, hs, normalizeObs_eq]
      split
      · exact ⟨_, rfl⟩
      · rename_i hover
        rw [over_iff] at hover
        have : ¬ l ≤ t + 1 := fun hh => hover (Or.inr ⟨l, hl, hh⟩)
        exact ih _ _ _ _ _ _ (by omega) (by omega)
  obtain ⟨r, hr⟩ : ∃ r, rollout env p c (max 1 l) update visualize decrease s = some r := by
    rcases hres : env.reset (if visualize then env.fresh else getEnv env s) with ⟨e, first⟩
    simp only [rollout, hres, normalizeObs_eq]
    obtain ⟨r, hr⟩ := key (max 1 l) 0 0 e (p.reset s.pol) (shown c (seenAfter c update s.obs [first]) first)
      { s with obs := seenAfter c update s.obs [first], collected := seenAfter c update s.collected [first] } (by omega) (by omega)
    exact ⟨_, by rw [hr]; rfl⟩
  refine ⟨r, hr, ?_⟩
  obtain ⟨s', ret, n⟩ := r
  obtain ⟨_, _, _, steps, _, _, hends, _, hn, _⟩ := C138_episode env p c _ update visualize decrease s s' ret n hr
  have hpos : 0 < steps.length := List.length_pos_iff.2 hends.1
  refine ⟨by show 1 ≤ n; omega, ?_⟩
  by_contra hc
  simp only at hc
  have hlt : max 1 l - 1 < steps.length := by omega
  have := (hends.2 (max 1 l - 1) steps[max 1 l - 1] (List.getElem?_eq_getElem hlt)).1 (Or.inr ⟨l, hl, by omega⟩)
  omega

/-! ### `run` -/

theorem rollouts_spec [Field K] (env : Env E O A K) (p : Policy H O A G) (c : Settings O K) (fuel : ℕ) (update visualize : Bool) (decrease : Option K) (n : ℕ) : ∀ (s s' : St E O G H) (rs : List (K × ℕ)),
    rollouts env p c fuel update visualize decrease n s = some (s', rs) →
    rs.length = n ∧ ∃ states : List (St E O G H), states.length = n + 1 ∧ states[0]? = some s ∧ states[n]? = some s' ∧
      ∀ i t t' r, states[i]? = some t → states[i + 1]? = some t' → rs[i]? = some r → rollout env p c fuel update visualize decrease t = some (t', r.1, r.2) := by
  induction n with
  | zero =>
    intro s s' rs h
    obtain ⟨rfl, rfl⟩ := by simpa [rollouts] using h
    exact ⟨rfl, [s], rfl, rfl, rfl, fun i t t' r _ h2 => by simp at h2⟩
  | succ n ih =>
    intro s s' rs h
    simp only [rollouts] at h
    cases hr : rollout env p c fuel update visualize decrease s with
    | none => rw [hr] at h; cases h
    | some r =>
      rw [hr] at h
      simp only [Option.bind_some, Option.map_eq_some_iff] at h
      obtain ⟨⟨s1, rs1⟩, h1, h2⟩ := h
      obtain ⟨rfl, rfl⟩ := by simpa using h2
      obtain ⟨hlen, states, k1, k2, k3, k4⟩ := ih _ _ _ h1
      refine ⟨by simp [hlen], s :: states, by simp [k1], rfl, by simpa using k3, ?_⟩
      intro i t t' x hi hi' hx
      cases i with
      | zero =>
        obtain ⟨rfl⟩ := by simpa using hi
        obtain ⟨rfl⟩ := by simpa using hx
        have : states[0]? = some t' := by simpa using hi'
        rw [k2] at this
        cases this
        exact hr
      | succ i => exact k4 i t t' x (by simpa using hi) (by simpa using hi') (by simpa using hx)

theorem foldl_add [Field K] (l : List (K × ℕ)) : ∀ x : K, l.foldl (fun total y => total + y.1) x = x + (l.map (·.1)).sum := by
  induction l with
  | nil => intro x; simp
  | cons y l ih => intro x; simp only [List.foldl_cons, ih, List.map_cons, List.sum_cons]; ring

theorem rollouts_counters [Field K] (env : Env E O A K) (p : Policy H O A G) (c : Settings O K) (fuel : ℕ) (update visualize : Bool) (decrease : Option K) (n : ℕ) : ∀ (s s' : St E O G H) (rs : List (K × ℕ)),
    rollouts env p c fuel update visualize decrease n s = some (s', rs) →
    (update = true → s'.interactions = s.interactions + (rs.map (·.2)).sum ∧ s'.episodes = s.episodes + rs.length) ∧
    (update = false → s'.interactions = s.interactions ∧ s'.episodes = s.episodes ∧ s'.obs = s.obs ∧ s'.collected = s.collected) := by
  induction n with
  | zero =>
    intro s s' rs h1
    obtain ⟨rfl, rfl⟩ := by simpa [rollouts] using h1
    simp
  | succ n ih =>
    intro s s' rs h1
    simp only [rollouts] at h1
    cases hr : rollout env p c fuel update visualize decrease s with
    | none => rw [hr] at h1; cases h1
    | some r =>
      rw [hr] at h1
      simp only [Option.bind_some, Option.map_eq_some_iff] at h1
      obtain ⟨⟨s2, rs2⟩, h1, h2⟩ := h1
      obtain ⟨rfl, rfl⟩ := by simpa using h2
      obtain ⟨p1, p2⟩ := ih _ _ _ h1
      obtain ⟨_, _, _, _, _, _, _, _, _, a1, a2, a3, a4, _⟩ := C138_episode env p c fuel update visualize decrease s r.1 r.2.1 r.2.2 hr
      constructor
      · rintro rfl
        obtain ⟨q1, q2⟩ := p1 rfl
        simp only [if_true] at a1 a2
        rw [q1, q2, a1, a2]
        simp only [List.map_cons, List.sum_cons, List.length_cons]
        omega
      · rintro rfl
        obtain ⟨q1, q2, q3, q4⟩ := p2 rfl
        simp only [seenAfter, Bool.false_eq_true, and_false, if_false, Nat.add_zero] at a1 a2 a3 a4
        exact ⟨q1.trans a1, q2.trans a2, q3.trans a3, q4.trans a4⟩

/-- C138: `run` plays the episodes one after the other (as many as asked, or as many as the problem evaluates), with the policy in its evaluation mode, and returns the average of their returns and the
sum of their steps. If statistics are to be updated, the counters of the problem grow by these steps and episodes; otherwise nothing about counters and statistics changes. Asking for no episode is a
TypeError. -/
theorem C138_run [Field K] (env : Env E O A K) (p : Policy H O A G) (c : Settings O K) (fuel : ℕ) (update visualize : Bool) (numEpisodes : Option ℕ) (decrease : Option K) (s s' : St E O G H)
    (res : Except PyErr (Result K)) (hr : run env p c fuel update visualize numEpisodes decrease s = some (s', res)) :
    ∃ (rs : List (K × ℕ)) (states : List (St E O G H)) (last : St E O G H), rs.length = numEpisodes.getD c.numEpisodes ∧ states.length = rs.length + 1 ∧
      states[0]? = some { s with pol := p.mode false s.pol } ∧ states[rs.length]? = some last ∧ s' = { last with pol := p.mode true last.pol } ∧
      (∀ i t t' r, states[i]? = some t → states[i + 1]? = some t' → rs[i]? = some r → rollout env p c fuel update visualize decrease t = some (t', r.1, r.2)) ∧
      (rs ≠ [] → res = .ok ⟨(rs.map (·.1)).sum / (rs.length : K), (rs.map (·.2)).sum⟩) ∧ (rs = [] → res = .error .typeError) ∧
      (update = true → s'.interactions = s.interactions + (rs.map (·.2)).sum ∧ s'.episodes = s.episodes + rs.length) ∧
      (update = false → s'.interactions = s.interactions ∧ s'.episodes = s.episodes ∧ s'.obs = s.obs ∧ s'.collected = s.collected) := by
  simp only [run, Option.map_eq_some_iff] at hr
  obtain ⟨⟨s1, rs⟩, h1, h2⟩ := hr
  obtain ⟨rfl, rfl⟩ := by simpa using h2
  obtain ⟨hlen, states, k1, k2, k3, k4⟩ := rollouts_spec env p c fuel update visualize decrease _ _ _ _ h1
  obtain ⟨c1, c2⟩ := rollouts_counters env p c fuel update visualize decrease _ _ _ _ h1
  refine ⟨rs, states, s1, hlen, by rw [k1, hlen], k2, by rw [hlen]; exact k3, rfl, k4, ?_, ?_, c1, c2⟩
  · intro hne
    cases rs with
    | nil => exact absurd rfl hne
    | cons r rest => simp only [accumulate, foldl_add, List.map_cons, List.sum_cons]
  · rintro rfl; rfl

/-- C138: a visualisation by default plays one episode, in an environment of its own: the environment of the problem, the counters and the statistics are as before. -/
theorem C138_visualize [Field K] (env : Env E O A K) (p : Policy H O A G) (c : Settings O K) (fuel : ℕ) (s s' : St E O G H) (res : Except PyErr (Result K))
    (hr : visualize env p c fuel (s := s) = some (s', res)) :
    s'.env = some (s.env.getD env.fresh) ∧ s'.interactions = s.interactions ∧ s'.episodes = s.episodes ∧ s'.obs = s.obs ∧ s'.collected = s.collected ∧
      ∃ last ret n, rollout env p c fuel false true none { s with pol := p.mode false s.pol } = some (last, ret, n) ∧ s' = { last with pol := p.mode true last.pol } ∧ res = .ok ⟨ret, n⟩ := by
  unfold visualize at hr
  obtain ⟨rs, states, last, h1, h2, h3, h4, hl, h5, h6, _, _, h9⟩ := C138_run env p c fuel false true (some 1) none s s' res hr
  simp only [Option.getD_some] at h1
  obtain ⟨r, rfl⟩ := List.length_eq_one_iff.1 h1
  have hroll := h5 0 _ last r h3 (by simpa using h4) rfl
  obtain ⟨_, _, _, _, _, _, _, _, _, _, _, _, _, henv⟩ := C138_episode env p c fuel false true none _ last r.1 r.2 hroll
  obtain ⟨k1, k2, k3, k4⟩ := h9 rfl
  exact ⟨by rw [hl]; simpa using henv, k1, k2, k3, k4, last, r.1, r.2, hroll, hl, by rw [h6 (by simp)]; simp⟩

/-- C138: the fitness of a solution is the average return over the episodes of the problem, with the rewards decreased as configured, and the evaluation counts its steps and episodes, which are what the
status of the problem reports. -/
theorem C138_evaluate [Field K] (env : Env E O A K) (p : Policy H O A G) (c : Settings O K) (hc : c.numEpisodes ≠ 0) (fuel : ℕ) (s s' : St E O G H) (res : Except PyErr K)
    (hr : evaluate env p c fuel s = some (s', res)) :
    ∃ r, run env p c fuel true false none none s = some (s', .ok r) ∧ res = .ok r.cumulativeReward ∧
      status s' = ((status s).1 + r.interactionCount, (status s).2 + c.numEpisodes) := by
  simp only [evaluate, Option.map_eq_some_iff] at hr
  obtain ⟨⟨s1, res1⟩, h1, h2⟩ := hr
  obtain ⟨rfl, rfl⟩ := by simpa using h2
  have h1' : run env p c fuel true false none none s = some (s1, res1) := by
    rw [← h1]
    have hro : ∀ n s, rollouts env p c fuel true false (some c.decrease) n s = rollouts env p c fuel true false none n s := by
      intro n
      induction n with
      | zero => intro s; rfl
      | succ n ih =>
        intro s
        simp only [rollouts]
        have : rollout env p c fuel true false (some c.decrease) s = rollout env p c fuel true false none s := rfl
        rw [this]
        congr 1
        funext r
        rw [ih]
    simp only [run, hro]
    rfl
  obtain ⟨rs, states, _, k1, _, _, _, _, _, k6, _, k8, _⟩ := C138_run env p c fuel true false none none s s1 res1 h1'
  have hne : rs ≠ [] := by
    rintro rfl
    exact hc k1.symm
  have := k6 hne
  subst this
  refine ⟨_, h1', rfl, ?_⟩
  obtain ⟨a, b⟩ := k8 rfl
  simp only [status, a, b, k1, Option.getD_none]

/-! ### Where the documentation is wrong -/

/-- An environment that ends after two steps (its state counts them) with rewards 1, and a policy that does nothing. -/
def exEnv : Env ℕ ℕ Unit ℚ := ⟨0, fun _ => (0, 5), fun e _ => (e + 1, e + 6, 1, decide (e ≥ 1))⟩

/-- A policy without a state. -/
def exPolicy : Policy Unit ℕ Unit ℕ := ⟨fun _ => (), fun _ _ => (), fun _ _ => ((), ()), fun g _ => (g + 1, ())⟩

/-- Settings without normalisation. -/
def exSettings : Settings ℕ ℚ := ⟨false, fun _ x => x, 0, none, 1⟩

/-- C138 fails: `run` is documented to ignore `update_stats` if observations are not normalised; but then, too, the counters of interactions and episodes depend on it. -/
theorem C138_violated_update_stats :
    ((run exEnv exPolicy exSettings 5 false false none none ⟨(), none, [], [], 0, 0, 0⟩).map fun r => status r.1) = some (0, 0) ∧
    ((run exEnv exPolicy exSettings 5 true false none none ⟨(), none, [], [], 0, 0, 0⟩).map fun r => status r.1) = some (2, 1) := by
  constructor <;> rfl

/- The action noise of a visualisation is drawn from the generator of the problem, which therefore advances. -/
example : ((visualize exEnv exPolicy exSettings 5 (s := ⟨(), none, [], [], 0, 0, 0⟩)).map fun r => r.1.gen) = some 2 := rfl
example : ((run exEnv exPolicy { exSettings with norm := true, numEpisodes := 2 } 5 true false none (some (1 / 2)) ⟨(), none, [], [], 0, 0, 0⟩).map fun r => (r.1.obs, r.1.interactions, r.1.episodes)) =
    some ([5, 6, 7, 5, 6, 7], 4, 2) := rfl
example : ((evaluate exEnv exPolicy exSettings 5 ⟨(), none, [], [], 0, 0, 0⟩).map fun r => r.2.toOption) = some (some 2) := by decide +kernel

end EvoTorch.GymRun
