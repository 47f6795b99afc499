import Verif.Model.Interrupt
import Verif.Props.GA
/-!
C160: a step that was interrupted by an error can be repeated.

The specification is `completed`: the calls of `step()` that were not interrupted. A history of calls ending with a completed one is to leave the search as the completed
calls alone would have, given the same draws.
-/
namespace EvoTorch.Interrupt
open BestWorst (Sense)
open GA (Row)
variable {V K E C : Type}

/-- The calls that were not interrupted. -/
def completed : List (E × Option C) → List E
  | [] => []
  | (e, none) :: as => e :: completed as
  | (_, some _) :: as => completed as

/-! ### Evaluating what was partially evaluated -/

theorem partialEvaluate_val (f : V → K) (done : List Bool) (rows : List (Row V K)) : (partialEvaluate f done rows).map (·.val) = rows.map (·.val) := by
  induction rows generalizing done with
  | nil => cases done with
    | nil => rfl
    | cons d ds => cases d <;> rfl
  | cons r rs ih => cases done with
    | nil => rfl
    | cons d ds => cases d <;> simp [partialEvaluate, ih]

theorem evaluate_of_val (f : V → K) {a b : List (Row V K)} (h : a.map (·.val) = b.map (·.val)) : GA.evaluate f a = GA.evaluate f b := by
  have key : ∀ l : List (Row V K), GA.evaluate f l = (l.map (·.val)).map fun v => ⟨v, some (f v)⟩ := by
    intro l; simp [GA.evaluate, Function.comp_def]
  rw [key, key, h]

/-- Evaluating a partially evaluated batch gives what evaluating it at once gives. -/
theorem evaluate_partialEvaluate (f g : V → K) (done : List Bool) (rows : List (Row V K)) : GA.evaluate f (partialEvaluate g done rows) = GA.evaluate f rows :=
  evaluate_of_val f (partialEvaluate_val g done rows)

theorem evaluate_evaluate (f g : V → K) (rows : List (Row V K)) : GA.evaluate f (GA.evaluate g rows) = GA.evaluate f rows :=
  evaluate_of_val f (by simp [GA.evaluate])

theorem partialEvaluate_nil (f : V → K) (rows : List (Row V K)) : partialEvaluate f [] rows = rows := by cases rows <;> rfl

/-! ### Interruptions that no step can see -/

theorem completed_append (as : List (E × Option C)) (e : E) : completed (as ++ [(e, none)]) = completed as ++ [e] := by
  induction as with
  | nil => rfl
  | cons x as ih => obtain ⟨e', c⟩ := x; cases c <;> simp [completed, ih]

/-- If a completed step cannot tell an interrupted call from none at all, histories of calls ending with a completed one leave what the completed calls leave. -/
theorem repeatable {S : Type} (step : S → E → S) (att : S → E × Option C → S) (hstep : ∀ s e, att s (e, none) = step s e) (P : E → Prop)
    (as : List (E × Option C)) (hP : ∀ a ∈ as, P a.1)
    (hc : ∀ a ∈ as, ∀ c, a.2 = some c → ∀ s e, P e → step (att s (a.1, some c)) e = step s e) (e : E) (he : P e) (s : S) :
    (as ++ [(e, none)]).foldl att s = (completed (as ++ [(e, none)])).foldl step s := by
  have key : ∀ a b : S, (∀ e, P e → step a e = step b e) → ∀ e, P e → step (as.foldl att a) e = step ((completed as).foldl step b) e := by
    induction as with
    | nil => intro a b h; exact h
    | cons x as ih =>
      intro a b h
      have ih' := ih (fun y hy => hP y (List.mem_cons_of_mem _ hy)) (fun y hy => hc y (List.mem_cons_of_mem _ hy))
      obtain ⟨x, c⟩ := x
      cases c with
      | none =>
        refine ih' (att a (x, none)) (step b x) fun e' _ => ?_
        rw [hstep, h x (hP (x, none) (by simp))]
      | some c =>
        refine ih' (att a (x, some c)) b fun e' he' => ?_
        rw [hc (x, some c) (by simp) c rfl a e' he', h e' he']
  rw [completed_append, List.foldl_append, List.foldl_append]
  show att (as.foldl att s) (e, none) = step ((completed as).foldl step s) e
  rw [hstep]
  exact key s s (fun _ _ => rfl) e he

/-! ### Genetic algorithms -/

/-- Two states no step can tell apart. -/
def Same (cfg : GA.Cfg K) (P : GA.Env V K → Prop) (a b : GA.State V K) : Prop := ∀ env, P env → GA.makeExtended cfg env a = GA.makeExtended cfg env b

theorem step_of_same {cfg : GA.Cfg K} {P : GA.Env V K → Prop} {a b : GA.State V K} (h : Same cfg P a b) {env : GA.Env V K} (he : P env) :
    GA.step cfg env a = GA.step cfg env b := by
  unfold GA.step; rw [h env he]

theorem interrupted_same_re (cfg : GA.Cfg K) (hre : cfg.reEvaluate = true) (env : GA.Env V K) (c : Crash) (st : GA.State V K) :
    Same cfg (fun _ => True) (interrupted cfg env c st) st := by
  intro env' _
  unfold interrupted GA.makeExtended
  rw [if_pos hre, if_pos hre, if_pos hre]
  cases hp : cfg.parentsFirst
  · simp
  · cases c <;> simp [evaluate_partialEvaluate, evaluate_evaluate]

theorem interrupted_same_no (cfg : GA.Cfg K) (hre : cfg.reEvaluate = false) (f : V → K) (env : GA.Env V K) (hf : env.f1 = f) (c : Crash)
    (hc : ∀ d, c ≠ .first d) (st : GA.State V K) : Same cfg (fun e => e.f1 = f) (interrupted cfg env c st) st := by
  intro env' he
  unfold interrupted GA.makeExtended
  simp only [hre, Bool.false_eq_true, if_false]
  cases hfi : st.firstIter
  · simp [hfi]
  · cases c with
    | first d => exact absurd rfl (hc d)
    | operators => simp [hf, he]
    | second d => simp [hf, he]

theorem run_eq_foldl (cfg : GA.Cfg K) (es : List (GA.Env V K)) (st : GA.State V K) : GA.run cfg es st = es.foldl (fun s e => GA.step cfg e s) st := by
  induction es generalizing st with
  | nil => rfl
  | cons x es ih => exact ih _

/-- **C160 (genetic algorithms that re-evaluate).** With `re_evaluate=True` (the default): whatever the history of completed and interrupted calls of `step()`, wherever
they were interrupted and whichever solutions had been evaluated by then, once another step completes the search is where the completed calls alone would have taken it. -/
theorem C160_re_evaluating (cfg : GA.Cfg K) (hre : cfg.reEvaluate = true) (as : List (GA.Env V K × Option Crash)) (e : GA.Env V K) (st : GA.State V K) :
    attempts cfg (as ++ [(e, none)]) st = GA.run cfg (completed (as ++ [(e, none)])) st := by
  rw [run_eq_foldl]
  exact repeatable _ (attempt cfg) (fun _ _ => rfl) (fun _ => True) as (fun _ _ => trivial)
    (fun a _ c _ st _ he => step_of_same (interrupted_same_re cfg hre a.1 c st) he) e trivial st

/-- **C160 (genetic algorithms that do not re-evaluate, proved part).** With `re_evaluate=False` and a deterministic fitness, the same holds for histories in which the
evaluation of the initial population was not interrupted. (A step makes the call `first` only if it is the first one; see `C160_violated_stuck` for what is missing.) -/
theorem C160_not_re_evaluating_partial (cfg : GA.Cfg K) (hre : cfg.reEvaluate = false) (f : V → K) (as : List (GA.Env V K × Option Crash)) (e : GA.Env V K)
    (hf : ∀ a ∈ as ++ [(e, none)], a.1.f1 = f) (hc : ∀ a ∈ as, ∀ d, a.2 ≠ some (.first d)) (st : GA.State V K) :
    attempts cfg (as ++ [(e, none)]) st = GA.run cfg (completed (as ++ [(e, none)])) st := by
  rw [run_eq_foldl]
  refine repeatable _ (attempt cfg) (fun _ _ => rfl) (fun e => e.f1 = f) as (fun a ha => hf a (by simp [ha])) ?_ e (hf (e, none) (by simp)) st
  intro a ha c hac st e' he'
  exact step_of_same (interrupted_same_no cfg hre f a.1 (hf a (by simp [ha])) c (fun d hd => hc a ha d (by rw [hac, hd])) st) he'

/-- **C160 (MAPElites).** The same for `MAPElites`, with its archive flags: always with `re_evaluate=True`, and with `re_evaluate=False` when the fitness is deterministic
and the evaluation of the initial population was not interrupted. -/
theorem C160_map_elites_partial [LinearOrder K] (cfg : MapElites.Cfg K) (as : List (GA.Env V (MapElites.Ev K) × Option Crash)) (e : GA.Env V (MapElites.Ev K))
    (h : cfg.reEvaluate = true ∨ ((∃ f, ∀ a ∈ as ++ [(e, none)], a.1.f1 = f) ∧ ∀ a ∈ as, ∀ d, a.2 ≠ some (.first d))) (st : MapElites.State V K) :
    mapAttempts cfg (as ++ [(e, none)]) st = (completed (as ++ [(e, none)])).foldl (MapElites.step cfg) st := by
  obtain ⟨P, hP, hS⟩ : ∃ P : GA.Env V (MapElites.Ev K) → Prop, (∀ a ∈ as ++ [(e, none)], P a.1) ∧
      ∀ a ∈ as, ∀ c, a.2 = some c → ∀ st, Same cfg.ga P (interrupted cfg.ga a.1 c st) st := by
    cases hre : cfg.reEvaluate with
    | true => exact ⟨fun _ => True, fun _ _ => trivial, fun a _ c _ st => interrupted_same_re cfg.ga hre a.1 c st⟩
    | false =>
      rcases h with h | ⟨⟨f, hf⟩, hc⟩
      · simp [hre] at h
      · exact ⟨fun e => e.f1 = f, hf, fun a ha c hac st => interrupted_same_no cfg.ga hre f a.1 (hf a (by simp [ha])) c (fun d hd => hc a ha d (by rw [hac, hd])) st⟩
  have stepEq : ∀ (a b : MapElites.State V K) (env : GA.Env V (MapElites.Ev K)), P env → Same cfg.ga P ⟨a.population, a.firstIter⟩ ⟨b.population, b.firstIter⟩ →
      MapElites.step cfg a env = MapElites.step cfg b env := by
    intro a b env he hs
    have : MapElites.extended cfg env a = MapElites.extended cfg env b := by unfold MapElites.extended; rw [hs env he]
    unfold MapElites.step; rw [this]
  refine repeatable (MapElites.step cfg) (mapAttempt cfg) (fun _ _ => rfl) P as (fun a ha => hP a (by simp [ha])) ?_ e (hP (e, none) (by simp)) st
  intro a ha c hac st e' he'
  exact stepEq _ _ e' he' (hS a ha c hac ⟨st.population, st.firstIter⟩)

/-! ### The violation -/

section stuck
variable [LinearOrder K]

/-- `take_best` of a maximisation problem: nothing left out is above what is kept, in the order in which NaN is the greatest. -/
theorem takeBest_split_nan {sort : Selection.Sorter (Option K)} (h : GA.NanSorterSpec sort) (n : Nat) (rows : List (Row V K)) :
    ∃ rest, (GA.takeBest sort .max n rows ++ rest).Perm rows ∧ (GA.takeBest sort .max n rows).length = min n rows.length ∧
      ∀ r ∈ GA.takeBest sort .max n rows, ∀ q ∈ rest, GA.torchLe q.ev r.ev := by
  obtain ⟨_, _, hlen, _, _⟩ := GA.takeBest_split h .max n rows
  have hs : (Sense.max == Sense.max) = true := rfl
  have hps := (h (rows.map (·.ev))).2
  have hp := hps.1
  rw [List.length_map] at hp
  refine ⟨((sort true (rows.map (·.ev))).drop n).filterMap fun i => rows[i]?, ?_, hlen, ?_⟩
  · show (((sort true (rows.map (·.ev))).take n).filterMap _ ++ _).Perm _
    rw [← List.filterMap_append, List.take_append_drop]
    have := hp.filterMap (fun i => rows[i]?)
    rwa [GA.filterMap_range] at this
  · intro r hr q hq
    obtain ⟨i, hi, hri⟩ := List.mem_filterMap.mp hr
    obtain ⟨j, hj, hqj⟩ := List.mem_filterMap.mp hq
    have hpw := hps.2
    rw [← List.take_append_drop n (sort true (rows.map (·.ev)))] at hpw
    exact (List.pairwise_append.mp hpw).2.2 i hi j hj _ _ (by rw [List.getElem?_map, hri]; rfl) (by rw [List.getElem?_map, hqj]; rfl)

theorem takeBest_none_first {sort : Selection.Sorter (Option K)} (h : GA.NanSorterSpec sort) {n : Nat} (parents children : List (Row V K))
    (hn : parents.length = n) (hp : ∀ r ∈ parents, r.ev = none) (hch : ∀ r ∈ children, r.ev ≠ none) :
    (GA.takeBest sort .max n (parents ++ children)).Perm parents := by
  obtain ⟨rest, hperm, hlen, hle⟩ := takeBest_split_nan h n (parents ++ children)
  generalize GA.takeBest sort .max n (parents ++ children) = kept at *
  rw [List.length_append, hn] at hlen
  have hlen : kept.length = n := by omega
  have hfp : parents.filter (fun r => r.ev.isNone) = parents := List.filter_eq_self.mpr fun r hr => by simp [hp r hr]
  have hfc : children.filter (fun r => r.ev.isNone) = [] := List.filter_eq_nil_iff.mpr fun r hr => by simpa using hch r hr
  have hf := hperm.filter (fun r => r.ev.isNone)
  rw [List.filter_append, List.filter_append, hfp, hfc, List.append_nil] at hf
  have hfl := hf.length_eq
  rw [List.length_append, hn] at hfl
  have hall : ∀ r ∈ kept, r.ev = none := by
    intro r hr
    cases hx : r.ev with
    | none => rfl
    | some x =>
      exfalso
      have hrest : rest.filter (fun r => r.ev.isNone) = [] := by
        refine List.filter_eq_nil_iff.mpr fun q hq => ?_
        have := hle r hr q hq
        cases hy : q.ev with
        | none => rw [hx, hy] at this; exact this.elim
        | some y => simp
      rw [hrest, List.length_nil, Nat.add_zero] at hfl
      have heq : kept.filter (fun r => r.ev.isNone) = kept := (List.filter_sublist).eq_of_length (by omega)
      have := List.filter_eq_self.mp heq r hr
      simp [hx] at this
  have hk : kept.filter (fun r => r.ev.isNone) = kept := List.filter_eq_self.mpr fun r hr => by simp [hall r hr]
  rw [hk] at hf hfl
  have : rest.filter (fun r => r.ev.isNone) = [] := List.eq_nil_of_length_eq_zero (by omega)
  rwa [this, List.append_nil] at hf

/-- **C160 fails for the first evaluation.** An elitist genetic algorithm that maximises and does not re-evaluate: if the evaluation of the initial population raises an
error before storing anything, then however many steps are completed afterwards, with whatever fitness and operators, the population remains the initial one and is never
evaluated. Without the failed call it would have been evaluated by the first step (`C160_evaluated_otherwise`). -/
theorem C160_violated_stuck (cfg : GA.Cfg K) (hs : GA.NanSorterSpec cfg.sort) (hmax : cfg.sense = .max) (hel : cfg.elitist = true) (hre : cfg.reEvaluate = false)
    (vals : List V) (hn : vals.length = cfg.popsize) (e : GA.Env V K) (es : List (GA.Env V K)) :
    (attempts cfg ((e, some (.first [])) :: es.map fun x => (x, none)) (GA.init vals)).population.Perm (fresh vals) := by
  have key : ∀ (es : List (GA.Env V K)) (st : GA.State V K), st.firstIter = false → st.population.Perm (fresh vals) →
      (attempts cfg (es.map fun x => (x, none)) st).population.Perm (fresh vals) := by
    intro es
    induction es with
    | nil => intro st _ h; exact h
    | cons x es ih =>
      intro st hfi hp
      have hpn : ∀ r ∈ st.population, r.ev = none := by
        intro r hr
        obtain ⟨v, _, rfl⟩ := List.mem_map.mp (hp.mem_iff.mp hr)
        rfl
      have hlen : st.population.length = cfg.popsize := by rw [hp.length_eq, fresh, List.length_map, hn]
      have hstep : GA.step cfg x st = ⟨GA.takeBest cfg.sort .max cfg.popsize (st.population ++ GA.evaluate x.f2 (x.ops st.population)), false⟩ := by
        simp [GA.step, GA.makeExtended, hre, hfi, hel, hmax]
      show (attempts cfg (es.map fun x => (x, none)) (GA.step cfg x st)).population.Perm _
      rw [hstep]
      refine ih _ rfl ((takeBest_none_first hs _ _ hlen hpn ?_).trans hp)
      intro r hr
      rw [GA.evaluate_ev _ _ r hr]; simp
  have hint : interrupted cfg e (.first []) (GA.init vals) = ⟨fresh vals, false⟩ := by
    simp [interrupted, hre, GA.init, partialEvaluate_nil, fresh]
  show (attempts cfg (es.map fun x => (x, none)) (interrupted cfg e (.first []) (GA.init vals))).population.Perm _
  rw [hint]
  exact key es _ rfl (List.Perm.refl _)

/-- Without the failed call every solution of the population is evaluated after any number of completed steps. -/
theorem C160_evaluated_otherwise (cfg : GA.Cfg K) (hre : cfg.reEvaluate = false) (vals : List V) (f : V → K) (e : GA.Env V K) (es : List (GA.Env V K))
    (hf : ∀ x ∈ e :: es, x.f1 = f ∧ x.f2 = f) : ∀ r ∈ (GA.run cfg (e :: es) (GA.init vals)).population, r.ev = some (f r.val) := by
  have key : ∀ (es : List (GA.Env V K)) (st : GA.State V K), (∀ x ∈ es, x.f1 = f ∧ x.f2 = f) → GA.Consistent cfg f st → GA.Consistent cfg f (GA.run cfg es st) := by
    intro es
    induction es with
    | nil => intro st _ h; exact h
    | cons x es ih =>
      intro st hx hc
      obtain ⟨h1, h2⟩ := hx x (by simp)
      obtain ⟨f1, f2, ops⟩ := x
      simp only at h1 h2; subst h1; subst h2
      exact ih _ (fun y hy => hx y (List.mem_cons_of_mem _ hy)) (GA.step_consistent _ ops st hc)
  have hfalse : ∀ (es : List (GA.Env V K)) (x : GA.Env V K) (st : GA.State V K), (GA.run cfg (x :: es) st).firstIter = false := by
    have hone : ∀ (x : GA.Env V K) (st : GA.State V K), (GA.step cfg x st).firstIter = false := by
      intro x st
      have := (GA.makeExtended_spec cfg x st).1
      unfold GA.step; dsimp only; split <;> [skip; split <;> [skip; split]] <;> exact this
    intro es
    induction es with
    | nil => intro x st; exact hone x st
    | cons y es ih => intro x st; exact ih y _
  exact key (e :: es) _ hf (fun _ h => by simp [GA.init] at h) hre (hfalse es e _)

end stuck

section examples
/-- An elitist genetic algorithm with two solutions; `sense` and `re_evaluate` to be chosen. -/
def exCfg (s : Sense) (re : Bool) : GA.Cfg ℚ := ⟨GA.qSorter, s, 2, true, re, true⟩
/-- Fitness `v`, children one above their parents. -/
def exEnv : GA.Env ℚ ℚ := ⟨fun v => v, fun v => v, fun rows => rows.map fun r => ⟨r.val + 1, none⟩⟩

-- the hypotheses of `C160_violated_stuck` are met, and the two outcomes are visibly different
example : (attempts (exCfg .max false) [(exEnv, some (.first [])), (exEnv, none), (exEnv, none)] (GA.init [3, 5])).population = [⟨3, none⟩, ⟨5, none⟩] := by decide +kernel
example : (GA.run (exCfg .max false) [exEnv, exEnv] (GA.init [3, 5])).population = [⟨7, some 7⟩, ⟨6, some 6⟩] := by decide +kernel
-- with re-evaluation an interrupted call makes no difference
example : (attempts (exCfg .max true) [(exEnv, some (.first [true])), (exEnv, none), (exEnv, some (.second [false, true])), (exEnv, none)] (GA.init [3, 5])).population =
    [⟨7, some 7⟩, ⟨6, some 6⟩] := by decide +kernel
-- without it, an interruption in the second evaluation makes none
example : (attempts (exCfg .max false) [(exEnv, some (.second [true])), (exEnv, none), (exEnv, some .operators), (exEnv, none)] (GA.init [3, 5])).population =
    [⟨7, some 7⟩, ⟨6, some 6⟩] := by decide +kernel
end examples

/-! ### Cosyne -/

/-- **C160 (Cosyne, proved part).** With a deterministic fitness and no interruption in the evaluation of the initial population, a history of calls ending with a completed
one leaves the search as the completed calls alone would. -/
theorem C160_cosyne_partial (cfg : GA.CosyneCfg K) (f : V → K) (as : List (CosyneEnv V K × Option Crash)) (e : CosyneEnv V K)
    (hf : ∀ a ∈ as ++ [(e, none)], a.1.f0 = f) (hc : ∀ a ∈ as, ∀ d, a.2 ≠ some (.first d)) (st : GA.State V K) :
    cosyneAttempts cfg (as ++ [(e, none)]) st = (completed (as ++ [(e, none)])).foldl (fun s e => GA.cosyneStep cfg e.f0 e.f e.breed e.permute s) st := by
  refine repeatable _ (cosyneAttempt cfg) (fun _ _ => rfl) (fun e => e.f0 = f) as (fun a ha => hf a (by simp [ha])) ?_ e (hf (e, none) (by simp)) st
  intro a ha c hac st e' he'
  have h0 : a.1.f0 = f := hf a (by simp [ha])
  show GA.cosyneStep cfg e'.f0 e'.f e'.breed e'.permute (cosyneInterrupted a.1 c st) = GA.cosyneStep cfg e'.f0 e'.f e'.breed e'.permute st
  unfold cosyneInterrupted
  cases hfi : st.firstIter
  · rfl
  · cases c with
    | first d => exact absurd hac (hc a ha d)
    | operators => simp only [GA.cosyneStep, hfi, h0, he', if_true, Bool.false_eq_true, if_false]
    | second d => simp only [GA.cosyneStep, hfi, h0, he', if_true, Bool.false_eq_true, if_false]

/-- A `Cosyne` with four solutions, of which one is an elite, minimising. -/
def exCosyne : GA.CosyneCfg ℚ := ⟨GA.qSorter, .min, 4, some 1⟩
/-- Fitness `v`; the operators make every value worse. -/
def exCosyneEnv : CosyneEnv ℚ ℚ := ⟨fun v => v, fun v => v, fun rows => rows.map fun r => ⟨r.val + 10, none⟩, fun rows => rows.map fun r => ⟨r.val + 10, none⟩⟩

/-- **C160 fails for the first evaluation of Cosyne.** After an interrupted evaluation of the initial population the elites are picked before anything was evaluated: the
best solution, which a search with one elite keeps, is lost. -/
theorem C160_violated_cosyne :
    (∃ r ∈ (cosyneAttempts exCosyne [(exCosyneEnv, none)] (GA.init [5, 1, 7, 8])).population, r.ev = some 1) ∧
    ∀ r ∈ (cosyneAttempts exCosyne [(exCosyneEnv, some (.first [])), (exCosyneEnv, none)] (GA.init [5, 1, 7, 8])).population, r.ev ≠ some 1 := by
  constructor <;> decide +kernel

example : (cosyneAttempts exCosyne [(exCosyneEnv, some .operators), (exCosyneEnv, some (.second [])), (exCosyneEnv, none)] (GA.init [5, 1, 7, 8])).population =
    (GA.cosyneStep exCosyne (fun v => v) (fun v => v) exCosyneEnv.breed exCosyneEnv.permute (GA.init [5, 1, 7, 8])).population := by decide +kernel

/-! ### Gaussian searches -/

/-- **C160 (Gaussian searches, proved part).** Interruptions before the first completed step do no harm: whatever the calls that failed, and whatever they had evaluated,
the first step and all later completed ones lead to where they would have led without them. -/
theorem C160_gaussian_first_partial {D : Type} (cfg : GaussCfg D V K) (d : D) (failed : List (GaussEnv D V K × List Bool)) (e : GaussEnv D V K)
    (es : List (GaussEnv D V K)) :
    gaussAttempts cfg (failed.map (fun x => (x.1, some x.2)) ++ (e :: es).map fun x => (x, none)) (gaussInit d) =
      gaussAttempts cfg ((e :: es).map fun x => (x, none)) (gaussInit d) := by
  have key : ∀ st : GaussState D V K, st.firstIter = true →
      (gaussAttempts cfg (failed.map fun x => (x.1, some x.2)) st).firstIter = true ∧
      (gaussAttempts cfg (failed.map fun x => (x.1, some x.2)) st).dist = st.dist := by
    induction failed with
    | nil => intro st h; exact ⟨h, rfl⟩
    | cons x failed ih =>
      intro st h
      have := ih (gaussInterrupted cfg x.1 x.2 st) h
      refine ⟨this.1, this.2.trans ?_⟩
      simp [gaussInterrupted, nextDist, h]
  obtain ⟨h1, h2⟩ := key (gaussInit d) rfl
  have h : gaussStep cfg e (gaussAttempts cfg (failed.map fun x => (x.1, some x.2)) (gaussInit d)) = gaussStep cfg e (gaussInit d) := by
    unfold gaussStep nextDist
    rw [h1, h2]
    rfl
  unfold gaussAttempts at h ⊢
  rw [List.foldl_append]
  show (es.map _).foldl (gaussAttempt cfg) (gaussStep cfg e (List.foldl (gaussAttempt cfg) (gaussInit d) (failed.map fun x => (x.1, some x.2)))) = _
  rw [h]
  rfl

/-- **C160 fails for later steps, fixed population size.** Whatever the update rule: when the evaluation of a step after the first one fails before storing anything, the
distribution has already been updated, and repeating the step updates it again, from samples none of which is evaluated. -/
theorem C160_violated_gaussian {D : Type} (cfg : GaussCfg D V K) (hfix : cfg.adaptive = false) (d : D) (e₁ e₂ e₃ : GaussEnv D V K) :
    (gaussAttempts cfg [(e₁, none), (e₂, none)] (gaussInit d)).dist = cfg.update d (GA.evaluate e₁.f (fresh (e₁.sample d))) ∧
    (gaussAttempts cfg [(e₁, none), (e₂, some []), (e₃, none)] (gaussInit d)).dist =
      cfg.update (cfg.update d (GA.evaluate e₁.f (fresh (e₁.sample d)))) (fresh (e₂.sample (cfg.update d (GA.evaluate e₁.f (fresh (e₁.sample d)))))) := by
  constructor
  · rfl
  · simp [gaussAttempts, gaussAttempt, gaussStep, gaussInterrupted, nextDist, gaussInit, hfix, partialEvaluate_nil]

/-- **C160, what stays.** When the evaluation of the initial population is interrupted, exactly the solutions which were evaluated before have their evaluations. -/
theorem C160_results_stay (cfg : GA.Cfg K) (hre : cfg.reEvaluate = false) (vals : List V) (e : GA.Env V K) (done : List Bool) :
    (attempts cfg [(e, some (.first done))] (GA.init vals)).population = (List.range vals.length).filterMap fun i => vals[i]?.map fun v => ⟨v, if done[i]? = some true then some (e.f1 v) else none⟩ := by
  have key : ∀ (done : List Bool) (vals : List V), partialEvaluate e.f1 done (vals.map fun v => ⟨v, none⟩) = (List.range vals.length).filterMap fun i => vals[i]?.map fun v => (⟨v, if done[i]? = some true then some (e.f1 v) else none⟩ : Row V K) := by
    intro done vals
    induction vals generalizing done with
    | nil => cases done with
      | nil => rfl
      | cons b _ => cases b <;> rfl
    | cons v vs ih =>
      cases done with
      | nil => simpa [partialEvaluate, List.range_succ_eq_map, List.filterMap_cons, List.filterMap_map, Function.comp_def, partialEvaluate_nil] using ih []
      | cons b ds => cases b <;> simpa [partialEvaluate, List.range_succ_eq_map, List.filterMap_cons, List.filterMap_map, Function.comp_def] using ih ds
  simp only [attempts, List.foldl, attempt, interrupted, hre, GA.init, Bool.false_eq_true, if_false, if_true, key]

/-- **C160 fails for later steps, adaptive population size.** The update of the failed call has been made, and repeating the step makes it again with the same population. -/
theorem C160_violated_adaptive {D : Type} (cfg : GaussCfg D V K) (had : cfg.adaptive = true) (d : D) (e₁ e₂ e₃ : GaussEnv D V K) (done : List Bool) :
    (gaussAttempts cfg [(e₁, none), (e₂, none)] (gaussInit d)).dist = cfg.update d (GA.evaluate e₁.f (fresh (e₁.sample d))) ∧
    (gaussAttempts cfg [(e₁, none), (e₂, some done), (e₃, none)] (gaussInit d)).dist =
      cfg.update (cfg.update d (GA.evaluate e₁.f (fresh (e₁.sample d)))) (GA.evaluate e₁.f (fresh (e₁.sample d))) := by
  constructor
  · rfl
  · simp [gaussAttempts, gaussAttempt, gaussStep, gaussInterrupted, nextDist, gaussInit, had]

/-- An update that adds the mean evaluation to the centre; a sample without evaluation counts as 100. -/
def exUpdate (d : ℚ) (rows : List (Row ℚ ℚ)) : ℚ := d + (rows.map fun r => match r.ev with | some x => x | none => 100).sum / rows.length
/-- Samples around the centre, evaluated as themselves. -/
def exGauss : GaussEnv ℚ ℚ ℚ := ⟨fun d => [d - 1, d + 3], fun v => v⟩

example : (gaussAttempts ⟨exUpdate, false⟩ [(exGauss, none), (exGauss, none)] (gaussInit 4)).dist = 9 ∧
    (gaussAttempts ⟨exUpdate, false⟩ [(exGauss, none), (exGauss, some []), (exGauss, none)] (gaussInit 4)).dist = 109 ∧
    (gaussAttempts ⟨exUpdate, true⟩ [(exGauss, none), (exGauss, some []), (exGauss, none)] (gaussInit 4)).dist = 14 ∧
    (gaussAttempts ⟨exUpdate, false⟩ [(exGauss, some [true]), (exGauss, some []), (exGauss, none), (exGauss, none)] (gaussInit 4)).dist = 9 := by
  decide +kernel

/-- **C160 (distributed mode).** In distributed mode every interrupted call is harmless: the distribution is what the completed calls make it. -/
theorem C160_distributed {D G : Type} (follow : D → G → D) (d : D) (calls : List ((D → G) × Option PyErr)) :
    calls.foldl (distributedAttempt follow) d = (completed calls).foldl (fun d fetched => follow d (fetched d)) d := by
  induction calls generalizing d with
  | nil => rfl
  | cons c calls ih =>
    obtain ⟨c, e⟩ := c
    cases e with
    | none => exact ih _
    | some e => exact ih d

example : ([(fun d => d, some .runtimeError), (fun d => d + 1, none), (fun d => d, some .valueError)] : List ((ℚ → ℚ) × Option PyErr)).foldl
    (distributedAttempt fun d g => d + g) 3 = 7 := by decide +kernel

/-! ### CMA-ES -/

/-- **C160 (CMA-ES).** Wherever the calls were interrupted: what the search adapts is at every moment what the completed calls alone make it, and after a completed call the
population is too. -/
theorem C160_cmaes {S : Type} (adapt : S → List (Row V K) → S) (as : List (CmaEnv S V K × Option (List Bool))) (st : CmaState S V K) :
    (cmaAttempts adapt as st).core = (cmaAttempts adapt ((completed as).map fun e => (e, none)) st).core ∧
    ∀ e, cmaAttempts adapt (as ++ [(e, none)]) st = cmaAttempts adapt ((completed as ++ [e]).map fun e => (e, none)) st := by
  have key : ∀ a b : CmaState S V K, a.core = b.core →
      (cmaAttempts adapt as a).core = (cmaAttempts adapt ((completed as).map fun e => (e, none)) b).core := by
    induction as with
    | nil => intro a b h; exact h
    | cons x as ih =>
      intro a b h
      obtain ⟨x, c⟩ := x
      cases c with
      | none =>
        refine ih (cmaAttempt adapt a (x, none)) (cmaAttempt adapt b (x, none)) ?_
        simp [cmaAttempt, h]
      | some c => exact ih (cmaAttempt adapt a (x, some c)) b h
  refine ⟨key st st rfl, fun e => ?_⟩
  have h := key st st rfl
  unfold cmaAttempts at *
  rw [List.map_append, List.foldl_append, List.foldl_append]
  have hone : ∀ a b : CmaState S V K, a.core = b.core → cmaAttempt adapt a (e, none) = cmaAttempt adapt b (e, none) := by
    intro a b hab
    simp [cmaAttempt, hab]
  exact hone _ _ h

example : (cmaAttempts exUpdate [(⟨fun d => [d - 1, d + 3], fun v => v⟩, some [true]), (⟨fun d => [d - 1, d + 3], fun v => v⟩, none), (⟨fun d => [d, d], fun v => v⟩, some [])]
    ⟨4, []⟩).core = 9 := by decide +kernel

end EvoTorch.Interrupt
