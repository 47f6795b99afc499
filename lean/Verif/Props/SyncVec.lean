import Verif.Model.SyncVec
import Mathlib.Data.List.Basic
import Mathlib.Tactic.Ring
/-! Properties C85 (sub-environments of `SyncVectorEnv`) and C86 (checks of spaces). -/
namespace EvoTorch.SyncVec
variable {S A O R : Type}

/-! ### Specification: an environment on its own, reset whenever an episode ends -/

/-- What happens at a step of an environment: the observation after the step, the first observation of a new episode (which starts now if
this one has ended), the reward and the two flags. -/
structure Event (O R : Type) where
  own : O
  fresh : O
  reward : R
  terminated : Bool
  truncated : Bool

def Event.done (e : Event O R) : Bool := e.terminated || e.truncated

/-- The events of an environment which is driven alone, for ever. -/
def alone (env : Env S A O R) : S → List A → List (Event O R)
  | _, [] => []
  | s, a :: rest =>
    let x := env.step s a
    let after := env.reset x.1
    { own := x.2.1, fresh := after.2, reward := x.2.2.1, terminated := x.2.2.2.1, truncated := x.2.2.2.2 } ::
      alone env (if x.2.2.2.1 || x.2.2.2.2 then after.1 else x.1) rest

/-- What should be reported for an event before which `d` episodes had ended. -/
def reportOf (numEpisodes : Option Nat) (d : Nat) (e : Event O R) : Report O R :=
  if numEpisodes.elim false (fun n => decide (n ≤ d)) then { obs := none, reward := none, terminated := true, truncated := true }
  else { obs := some (if e.done && !decide (numEpisodes = some (d + 1)) then e.fresh else e.own), reward := some e.reward
         terminated := e.terminated, truncated := e.truncated }

/-- Drive one sub-environment. -/
def runSub (env : Env S A O R) : Sub S → List A → List (Report O R)
  | _, [] => []
  | sub, a :: rest => (applyStep env sub a).2 :: runSub env (applyStep env sub a).1 rest

/-- The state of one sub-environment after the actions. -/
def finalSub (env : Env S A O R) : Sub S → List A → Sub S
  | sub, [] => sub
  | sub, a :: rest => finalSub env (applyStep env sub a).1 rest

theorem stepAll_ok (envs : List (Env S A O R)) (subs : List (Sub S)) (acts : List A) (h1 : envs.length = subs.length) (h2 : acts.length = subs.length) :
    ∃ subs' reps, stepAll envs subs acts = .ok (subs', reps) ∧ subs'.length = subs.length ∧ reps.length = subs.length ∧
      ∀ (i : Nat) (e : Env S A O R) (s : Sub S) (a : A), envs[i]? = some e → subs[i]? = some s → acts[i]? = some a →
        subs'[i]? = some (applyStep e s a).1 ∧ reps[i]? = some (applyStep e s a).2 := by
  refine ⟨_, _, by simp [stepAll, h2]; exact ⟨rfl, rfl⟩, by simp [h1, h2], by simp [h1, h2], ?_⟩
  intro i e s a he hs ha
  simp [List.getElem?_zip_eq_some, List.getElem?_map, List.getElem?_zip_eq_some, he, hs, ha, List.zip, List.getElem?_zipWith]

/-- **C85.** Sub-environments do not influence each other: in a sequence of steps, what is reported for the `i`-th is what it reports when it
is driven alone with the `i`-th actions. -/
theorem C85_independent (envs : List (Env S A O R)) : ∀ (steps : List (List A)) (subs : List (Sub S)),
    envs.length = subs.length → (∀ acts ∈ steps, acts.length = subs.length) →
    ∃ subs' reps, stepsAll envs subs steps = .ok (subs', reps) ∧ subs'.length = subs.length ∧
      ∀ (i : Nat) (e : Env S A O R) (s : Sub S), envs[i]? = some e → subs[i]? = some s →
        reps.map (fun r => r[i]?) = (runSub e s (steps.filterMap fun acts => acts[i]?)).map some ∧
        subs'[i]? = some (finalSub e s (steps.filterMap fun acts => acts[i]?)) := by
  intro steps
  induction steps with
  | nil => intro subs h1 _; exact ⟨subs, [], rfl, rfl, fun i e s _ hs => ⟨rfl, by simpa [finalSub] using hs⟩⟩
  | cons acts steps ih =>
    intro subs h1 h2
    obtain ⟨subs1, reps1, a1, a2, a3, a4⟩ := stepAll_ok envs subs acts h1 (h2 acts (by simp))
    obtain ⟨subs2, reps2, b1, b2, b3⟩ := ih subs1 (by rw [a2, h1]) (fun x hx => by rw [a2]; exact h2 x (by simp [hx]))
    refine ⟨subs2, reps1 :: reps2, by simp [stepsAll, a1, Except.bind, b1, Except.map], by rw [b2, a2], ?_⟩
    intro i e s he hs
    have hi : i < subs.length := (List.getElem?_eq_some_iff.1 hs).1
    have ha : acts[i]? = some (acts[i]'(by rw [h2 acts (by simp)]; exact hi)) := List.getElem?_eq_getElem _
    obtain ⟨c1, c2⟩ := a4 i e s _ he hs ha
    obtain ⟨d1, d2⟩ := b3 i e _ he c1
    simp only [List.filterMap_cons, ha, List.map_cons, runSub, finalSub]
    exact ⟨by rw [c2, d1], d2⟩

theorem runSub_alone (env : Env S A O R) (numEpisodes : Option Nat) : ∀ (acts : List A) (s : S) (d : Nat), (∀ n ∈ numEpisodes, d ≤ n) →
    ∀ (k : Nat) (e : Event O R), (alone env s acts)[k]? = some e →
      (runSub env { state := s, counter := numEpisodes.map (· - d) } acts)[k]? =
        some (reportOf numEpisodes (d + ((alone env s acts).take k).countP Event.done) e) := by
  intro acts
  induction acts with
  | nil => intro s d _ k e h; simp [alone] at h
  | cons a acts ih =>
    intro s d hd k e h
    by_cases hex : numEpisodes.elim false (fun n => decide (n ≤ d)) = true
    · -- exhausted: whatever comes, the dummy is reported
      obtain ⟨n, hn⟩ : ∃ n, numEpisodes = some n := by cases numEpisodes <;> simp_all
      subst hn
      have hnd : n = d := by have := hd n rfl; simp at hex; omega
      subst hnd
      have hstep : ∀ b : A, applyStep env { state := s, counter := (some n).map (· - n) } b =
          ({ state := s, counter := (some n).map (· - n) }, { obs := none, reward := none, terminated := true, truncated := true }) := by
        intro b; simp [applyStep]
      have hall : ∀ (bs : List A) (j : Nat), j < bs.length → (runSub env { state := s, counter := (some n).map (· - n) } bs)[j]? =
          some { obs := none, reward := none, terminated := true, truncated := true } := by
        intro bs
        induction bs with
        | nil => intro j hj; simp at hj
        | cons b bs ihb =>
          intro j hj
          cases j with
          | zero => simp only [runSub, hstep, List.getElem?_cons_zero]
          | succ j => simp only [runSub, hstep, List.getElem?_cons_succ]; exact ihb j (by simpa using hj)
      have hlen : ∀ (bs : List A) (s : S), (alone env s bs).length = bs.length := by
        intro bs; induction bs with
        | nil => intro s; rfl
        | cons b bs ihb => intro s; simp [alone, ihb]
      have hk : k < (a :: acts).length := by rw [← hlen (a :: acts) s]; exact (List.getElem?_eq_some_iff.1 h).1
      rw [hall (a :: acts) k hk]
      simp [reportOf]
    · have hact : (numEpisodes.map (· - d)).elim true (fun c => decide (c > 0)) = true := by
        cases numEpisodes with
        | none => rfl
        | some n => simp at hex ⊢; omega
      have hlast : (numEpisodes.map (· - d)).elim false (fun c => c == 1) = decide (numEpisodes = some (d + 1)) := by
        cases numEpisodes with
        | none => rfl
        | some n => simp at hex ⊢; rw [Bool.eq_iff_iff]; simp; omega
      rcases hx : env.step s a with ⟨s', o, w, te, tr⟩
      by_cases hdone : (te || tr) = true
      · have hap : applyStep env { state := s, counter := numEpisodes.map (· - d) } a =
            ({ state := (env.reset s').1, counter := numEpisodes.map (· - (d + 1)) },
              { obs := some (if decide (numEpisodes = some (d + 1)) then o else (env.reset s').2), reward := some w, terminated := te, truncated := tr }) := by
          simp only [applyStep, hact, hlast, hx, hdone, if_true, Bool.not_true, Bool.false_eq_true, if_false]
          congr 2
          cases numEpisodes <;> simp [Nat.sub_sub]
        cases k with
        | zero =>
          simp only [alone, hx, List.getElem?_cons_zero, Option.some.injEq] at h
          subst h
          simp only [runSub, hap, List.getElem?_cons_zero, List.take_zero, List.countP_nil, Nat.add_zero]
          simp only [reportOf, hex, Bool.false_eq_true, if_false, Event.done, hdone, Bool.true_and]
          by_cases hl : numEpisodes = some (d + 1) <;> simp [hl]
        | succ k =>
          simp only [alone, hx, hdone, if_true, List.getElem?_cons_succ] at h
          have := ih (env.reset s').1 (d + 1) (by intro n hn; have := hd n hn; cases hn; simp at hex; omega) k e h
          simp only [runSub, hap, List.getElem?_cons_succ, this, alone, hx, hdone, if_true, List.take_succ_cons, List.countP_cons, Event.done]
          congr 2
          omega
      · have hap : applyStep env { state := s, counter := numEpisodes.map (· - d) } a =
            ({ state := s', counter := numEpisodes.map (· - d) },
              { obs := some o, reward := some w, terminated := te, truncated := tr }) := by
          simp only [applyStep, hact, hx, hdone, Bool.not_true, Bool.false_eq_true, if_false]
        cases k with
        | zero =>
          simp only [alone, hx, List.getElem?_cons_zero, Option.some.injEq] at h
          subst h
          simp only [runSub, hap, List.getElem?_cons_zero, List.take_zero, List.countP_nil, Nat.add_zero]
          simp [reportOf, hex, Event.done, hdone]
        | succ k =>
          simp only [alone, hx, hdone, Bool.false_eq_true, if_false, List.getElem?_cons_succ] at h
          have := ih s' d hd k e h
          simp only [runSub, hap, List.getElem?_cons_succ, this, alone, hx, hdone, Bool.false_eq_true, if_false, List.take_succ_cons, List.countP_cons, Event.done]
          simp

/-- **C85.** After `reset()`, a sub-environment with `num_episodes = n` (or unlimited) reports exactly what the environment does when driven
alone: rewards and flags as they are, the observation of the new episode as soon as an episode has ended (eager auto-reset), but the last
observation of the `n`-th episode; from then on, NaN and "terminated and truncated". `k` episodes are counted by their ends. -/
theorem C85_like_alone (env : Env S A O R) (numEpisodes : Option Nat) (sub : Sub S) (acts : List A) (k : Nat) (e : Event O R)
    (h : (alone env (env.reset sub.state).1 acts)[k]? = some e) :
    (resetSub env numEpisodes sub).2 = (env.reset sub.state).2 ∧
    (runSub env (resetSub env numEpisodes sub).1 acts)[k]? =
      some (reportOf numEpisodes (((alone env (env.reset sub.state).1 acts).take k).countP Event.done) e) := by
  refine ⟨rfl, ?_⟩
  have := runSub_alone env numEpisodes acts (env.reset sub.state).1 0 (by simp) k e h
  have e1 : numEpisodes.map (· - 0) = numEpisodes := by cases numEpisodes <;> simp
  rw [e1, Nat.zero_add] at this
  exact this

/-- **C85.** A batch of actions of the wrong size is refused. -/
theorem C85_wrong_size (envs : List (Env S A O R)) (subs : List (Sub S)) (acts : List A) (h : acts.length ≠ subs.length) :
    stepAll envs subs acts = .error .valueError := by simp [stepAll, h]

/-- An environment which counts: episodes end at 2. -/
def exampleEnv : Env Nat Nat Nat Nat := { reset := fun _ => (0, 0), step := fun s a => (s + 1, s + 1, a, decide (s + 1 = 2), false) }

example : runSub exampleEnv (resetSub exampleEnv (some 2) ⟨7, none⟩).1 [10, 20, 30, 40, 50] =
    [⟨some 1, some 10, false, false⟩, ⟨some 0, some 20, true, false⟩, ⟨some 1, some 30, false, false⟩, ⟨some 2, some 40, true, false⟩,
      ⟨none, none, true, true⟩] := by decide
example : ∃ e, (alone exampleEnv (exampleEnv.reset 7).1 [10, 20, 30, 40, 50])[4]? = some e := ⟨_, rfl⟩

/-! ### Spaces -/

/-- Spaces which `SyncVectorEnv` supports. -/
def Supported (s : Spaces) : Prop := (∃ sh, s.obs = .box sh) ∧ ((∃ sh, s.act = .box sh) ∨ ∃ n, s.act = .discrete n)

/-- **C86** (part). What `SyncVectorEnv` accepts has supported spaces in the first sub-environment, observations of equal shape, and action
spaces of the same kind, equal in number of actions if discrete. Missing: equal shapes of box action spaces, see `C86_violated_action_shape`, and box observations of the others, see
`C86_violated_observations`. -/
theorem C86_accepted_partial (first : Spaces) (rest : List Spaces) (h : checkAll (first :: rest) = .ok ()) :
    Supported first ∧ ∀ s ∈ rest, (∀ o o', first.obs = .box o → s.obs = .box o' → o' = o) ∧
      (∀ n, s.act = .discrete n ↔ first.act = .discrete n) ∧ ((∃ sh, s.act = .box sh) ↔ ∃ sh, first.act = .box sh) := by
  have hf : checkFirst first = .ok () := by
    cases hc : checkFirst first with
    | error e => simp [checkAll, hc, Except.bind] at h
    | ok u => rfl
  have hr : checkRest first rest = .ok () := by simpa [checkAll, hf, Except.bind] using h
  have hsup : Supported first := by
    rcases first with ⟨fo, fa⟩
    cases fo <;> cases fa <;> simp_all [checkFirst, Supported]
  refine ⟨hsup, ?_⟩
  have hall : ∀ rest : List Spaces, checkRest first rest = .ok () → ∀ s ∈ rest, checkOther first s = .ok () := by
    intro rest
    induction rest with
    | nil => intro _ s hs; simp at hs
    | cons x rest ih =>
      intro hx s hs
      simp only [checkRest] at hx
      cases hc : checkOther first x with
      | error e => rw [hc] at hx; simp [Except.bind] at hx
      | ok u =>
        rw [hc] at hx
        rcases List.mem_cons.1 hs with rfl | hs
        · exact hc
        · exact ih hx s hs
  intro s hs
  have hc := hall rest hr s hs
  unfold checkOther at hc
  split at hc
  · simp at hc
  rename_i hshape
  have hshape' : s.obs.shape = first.obs.shape := by simpa using hshape
  refine ⟨fun o o' h1 h2 => by rw [h1, h2] at hshape'; exact hshape', ?_⟩
  obtain ⟨_, hact⟩ := hsup
  cases hsa : s.act with
  | discrete n =>
    cases hfa : first.act with
    | discrete n' =>
      rw [hsa, hfa] at hc
      by_cases hn : n = n'
      · subst hn; simp
      · simp [hn] at hc
    | box sh => rw [hsa, hfa] at hc; simp at hc
    | other => rw [hsa, hfa] at hc; simp at hc
  | box sh =>
    cases hfa : first.act with
    | discrete n' => rw [hsa, hfa] at hc; simp at hc
    | box sh => simp
    | other => rw [hsa, hfa] at hc; simp at hc
  | other => rw [hsa] at hc; simp at hc

/-- **C86** (part). Equal supported spaces are accepted. -/
theorem C86_equal_accepted_partial (s : Spaces) (h : Supported s) (n : Nat) : checkAll (List.replicate (n + 1) s) = .ok () := by
  obtain ⟨⟨sh, ho⟩, ha⟩ := h
  have h1 : checkFirst s = .ok () := by rcases ha with ⟨x, hx⟩ | ⟨x, hx⟩ <;> simp [checkFirst, ho, hx]
  have h2 : checkOther s s = .ok () := by rcases ha with ⟨x, hx⟩ | ⟨x, hx⟩ <;> simp [checkOther, hx]
  rw [List.replicate_succ]
  simp only [checkAll, h1, Except.bind]
  induction n with
  | zero => rfl
  | succ n ih =>
    rw [List.replicate_succ, checkRest, h2]
    exact ih

example : Supported ⟨.box [3], .discrete 2⟩ := ⟨⟨_, rfl⟩, Or.inr ⟨_, rfl⟩⟩

/-- **C86** (part). How the other cases are refused: no sub-environment at all and different observations or numbers of actions with a ValueError, unsupported spaces of the first one and action spaces of
different kinds with a TypeError. -/
theorem C86_refused :
    checkAll [] = .error .valueError ∧
    (∀ (first : Spaces) (rest : List Spaces), ¬ Supported first → checkAll (first :: rest) = .error .typeError) ∧
    (∀ (o o' : List Nat) (a a' : Space) (rest : List Spaces), Supported ⟨.box o, a⟩ → o' ≠ o → checkAll (⟨.box o, a⟩ :: ⟨.box o', a'⟩ :: rest) = .error .valueError) ∧
    (∀ (first s : Spaces) (n n' : Nat) (rest : List Spaces), Supported first → s.obs = first.obs → first.act = .discrete n → s.act = .discrete n' → n' ≠ n →
      checkAll (first :: s :: rest) = .error .valueError) ∧
    (∀ (first s : Spaces) (n : Nat) (sh : List Nat) (rest : List Spaces), Supported first → s.obs = first.obs →
      (first.act = .discrete n ∧ s.act = .box sh ∨ first.act = .box sh ∧ s.act = .discrete n) → checkAll (first :: s :: rest) = .error .typeError) ∧
    (∀ s : Spaces, (∀ sh, s.obs ≠ .box sh) → ensureSpaceTypes s = .error .typeError) := by
  have h1 : ∀ first : Spaces, Supported first → checkFirst first = .ok () := by
    rintro first ⟨⟨sh, ho⟩, ha⟩
    rcases ha with ⟨x, hx⟩ | ⟨x, hx⟩ <;> simp [checkFirst, ho, hx]
  refine ⟨rfl, ?_, ?_, ?_, ?_, ?_⟩
  · rintro ⟨fo, fa⟩ rest h
    cases fo <;> cases fa <;> simp_all [checkAll, checkFirst, Supported, Except.bind]
  · intro o o' a a' rest h hs
    simp [checkAll, h1 _ h, checkRest, checkOther, Space.shape, hs, Except.bind]
  · intro first s n n' rest h hs hf ha hn
    simp [checkAll, h1 first h, checkRest, checkOther, hs, hf, ha, hn, Except.bind]
  · rintro first s n sh rest h hs (⟨hf, ha⟩ | ⟨hf, ha⟩) <;> simp [checkAll, h1 first h, checkRest, checkOther, hs, hf, ha, Except.bind]
  · rintro ⟨o, a⟩ h
    cases o <;> simp_all [ensureSpaceTypes]

/-- **C86 violated.** Sub-environments whose box action spaces have different shapes are accepted. -/
theorem C86_violated_action_shape (o a a' : List Nat) : checkAll [⟨.box o, .box a⟩, ⟨.box o, .box a'⟩] = .ok () := by
  simp [checkAll, checkRest, checkFirst, checkOther, Except.bind]

/-- **C86 violated.** The kind of the observation space is checked for the first sub-environment only: after observations which are single numbers, a sub-environment with discrete observations is accepted. -/
theorem C86_violated_observations (n : Nat) (a : Space) (h : Supported ⟨.box [], a⟩) : checkAll [⟨.box [], a⟩, ⟨.discrete n, a⟩] = .ok () := by
  obtain ⟨-, ⟨sh, rfl⟩ | ⟨k, rfl⟩⟩ := h <;> simp [checkAll, checkRest, checkFirst, checkOther, Space.shape, Except.bind]

example : Supported ⟨.box [], .discrete 2⟩ := ⟨⟨_, rfl⟩, Or.inr ⟨_, rfl⟩⟩

/-- **C86 violated.** `GymNE`'s check accepts any action space: it tests the observation space twice. -/
theorem C86_violated_gymne (o : List Nat) (a : Space) : ensureSpaceTypes ⟨.box o, a⟩ = .ok () := rfl

end EvoTorch.SyncVec
