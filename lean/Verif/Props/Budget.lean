import Verif.Model.Budget
import Verif.Props.GA
/-!
C169: what evolutionary searches evaluate, how fresh the evaluations are, and what the operators see.
-/
namespace EvoTorch.Budget
open EvoTorch
open EvoTorch.GA (Row Env State evaluate takeBest NanSorterSpec)
variable {V K : Type}

/-! ### Specification -/

/-- The number of solutions evaluated in a record. -/
def evaluated : List (Event V K) → Nat
  | [] => 0
  | .evaluate vals :: es => vals.length + evaluated es
  | .operators _ :: es => evaluated es

/-- The search may use a `CrossOver`: one was given, or `SteadyStateGA.use` may register one. -/
def Args.MayCross (a : Args) : Prop := a.givenCross = true ∨ (a.steady = true ∧ a.numOps = 0)

/-- The operators make `c` children of a population of `popsize`. -/
def Makes (popsize : Nat) (e : Env V K) (c : Nat) : Prop := ∀ rows, rows.length = popsize → (e.ops rows).length = c

/-! ### The record belongs to the steps -/

theorem ev_evaluate (f : V → K) (rows : List (Row V K)) : ∀ r ∈ evaluate f rows, r.ev = some (f r.val) := by
  intro r hr; obtain ⟨q, _, rfl⟩ := List.mem_map.1 hr; rfl

theorem val_evaluate (f : V → K) (rows : List (Row V K)) : (evaluate f rows).map (·.val) = rows.map (·.val) := by simp [evaluate]

theorem len_evaluate (f : V → K) (rows : List (Row V K)) : (evaluate f rows).length = rows.length := by simp [evaluate]

theorem sub_takeBest (sort : Selection.Sorter (Option K)) (s : BestWorst.Sense) (n : Nat) (rows : List (Row V K)) : ∀ r ∈ takeBest sort s n rows, r ∈ rows := by
  intro r hr
  obtain ⟨i, -, hi⟩ := List.mem_filterMap.1 hr
  exact List.mem_of_getElem? hi

theorem len_parents (cfg : GA.Cfg K) (env : Env V K) (st : State V K) : (GA.makeExtended cfg env st).2.1.length = st.population.length := by
  unfold GA.makeExtended
  cases cfg.reEvaluate <;> cases cfg.parentsFirst <;> cases st.firstIter <;> simp [evaluate]

/-- **C169**, the record is that of the steps of the model of C22 and C33. -/
theorem C169_record (cfg : GA.Cfg K) (env : Env V K) (st : State V K) : (makeExtended cfg env st).1 = GA.makeExtended cfg env st := by
  unfold makeExtended GA.makeExtended
  cases cfg.reEvaluate <;> cases cfg.parentsFirst <;> cases st.firstIter <;> rfl

theorem evaluated_append (a b : List (Event V K)) : evaluated (a ++ b) = evaluated a + evaluated b := by
  induction a with
  | nil => simp [evaluated]
  | cons e es ih => cases e <;> simp only [List.cons_append, evaluated, ih] ; omega

theorem evaluated_events (cfg : GA.Cfg K) (env : Env V K) (st : State V K) {c : Nat} (hc : Makes st.population.length env c) :
    evaluated (events cfg env st) = (if cfg.reEvaluate || st.firstIter then st.population.length else 0) + c := by
  unfold events makeExtended
  cases hr : cfg.reEvaluate <;> cases hp : cfg.parentsFirst <;> cases hf : st.firstIter <;>
    simp [evaluated, hc _ rfl, hc _ (len_evaluate env.f1 st.population)]

theorem step_firstIter (cfg : GA.Cfg K) (env : Env V K) (st : State V K) : (GA.step cfg env st).firstIter = false := by
  have h : (GA.makeExtended cfg env st).1.firstIter = false := by
    unfold GA.makeExtended
    split
    · split <;> rfl
    · rfl
  unfold GA.step
  dsimp only
  split
  · exact h
  · split
    · exact h
    · split <;> exact h

/-! ### Theorems -/

/-- **C169**, settings: which arguments are accepted, and that parents are evaluated before a cross-over looks at them unless this is switched off. -/
theorem C169_settings (a : Args) :
    ((∃ f, settle a = .ok f) ↔ (a.steady = true ∨ a.numOps ≠ 0) ∧ (a.parentsFirst ≠ none → a.reEvaluate = true)) ∧
    ∀ f, settle a = .ok f →
      f.reported.1 = a.reEvaluate ∧ (f.reported.2 = none ↔ a.reEvaluate = false) ∧
      (∀ b, a.parentsFirst = some b → f.reported.2 = some b) ∧
      (a.MayCross → a.parentsFirst ≠ some false → f.reEvaluate = false ∨ f.parentsFirst = true) := by
  obtain ⟨steady, n, cross, re, pf⟩ := a
  rcases n with _ | n <;> cases steady <;> cases cross <;> cases re <;> rcases pf with _ | _ | _ <;>
    simp [settle, steadyDefault, Flags.reported, Args.MayCross]

/-- **C169**, budget: over a run of `GeneticAlgorithm` or `SteadyStateGA`, the solutions evaluated are all children, and the population once (`re_evaluate=False`) or in every step
(`re_evaluate=True`). -/
theorem C169_budget [LinearOrder K] {cfg : GA.Cfg K} (h : NanSorterSpec cfg.sort) (c : Env V K → Nat) (envs : List (Env V K)) (hc : ∀ e ∈ envs, Makes cfg.popsize e (c e)) (vals : List V)
    (hv : vals.length = cfg.popsize) :
    evaluated (record cfg envs (GA.init vals)) = (if cfg.reEvaluate then envs.length else min 1 envs.length) * cfg.popsize + (envs.map c).sum := by
  have key : ∀ (envs : List (Env V K)), (∀ e ∈ envs, Makes cfg.popsize e (c e)) → ∀ st : State V K, st.population.length = cfg.popsize → st.firstIter = false →
      evaluated (record cfg envs st) = (if cfg.reEvaluate then envs.length else 0) * cfg.popsize + (envs.map c).sum := by
    intro envs
    induction envs with
    | nil => intro _ st _ _; simp [record, evaluated]
    | cons e es ih =>
      intro hc st hl hf
      have h1 := evaluated_events cfg e st (c := c e) (by rw [hl]; exact hc e (List.mem_cons_self ..))
      have h2 := ih (fun e hm => hc e (List.mem_cons_of_mem _ hm)) (GA.step cfg e st) (GA.step_length h e st hl) (step_firstIter cfg e st)
      rw [record, evaluated_append, h1, h2, hl, hf]
      cases cfg.reEvaluate <;> simp [Nat.succ_mul] <;> omega
  cases envs with
  | nil => simp [record, evaluated]
  | cons e es =>
    have hl : (GA.init vals : State V K).population.length = cfg.popsize := by simpa [GA.init] using hv
    have h1 := evaluated_events cfg e (GA.init vals) (c := c e) (by rw [hl]; exact hc e (List.mem_cons_self ..))
    have h2 := key es (fun e hm => hc e (List.mem_cons_of_mem _ hm)) (GA.step cfg e (GA.init vals)) (GA.step_length h e _ hl) (step_firstIter cfg e _)
    rw [record, evaluated_append, h1, h2, hl]
    have : (GA.init vals : State V K).firstIter = true := rfl
    rw [this]
    cases cfg.reEvaluate
    · have : min 1 (e :: es).length = 1 := by simp
      simp; omega
    · simp [Nat.succ_mul]; omega

/-- **C169**, budget of `MAPElites`: as for `GeneticAlgorithm`, with one solution for every cell. -/
theorem C169_budget_map_elites [LinearOrder K] (cfg : MapElites.Cfg K) (hA : ∀ l : List (Flt K), l ≠ [] → cfg.A.argmin l < l.length ∧ cfg.A.argmax l < l.length)
    (c : Env V (MapElites.Ev K) → Nat) (envs : List (Env V (MapElites.Ev K))) (hc : ∀ e ∈ envs, Makes cfg.grid.length e (c e)) (vals : List V) (hv : vals.length = cfg.grid.length) :
    evaluated (recordMap cfg envs (MapElites.init vals)) = (if cfg.reEvaluate then envs.length else min 1 envs.length) * cfg.grid.length + (envs.map c).sum := by
  have hstep : ∀ (e : Env V (MapElites.Ev K)) (st : MapElites.State V K), st.population.length = cfg.grid.length → (MapElites.step cfg st e).population.length = cfg.grid.length := by
    intro e st hl
    by_cases hg : cfg.grid = []
    · simp [MapElites.step, hg]
    · have hx : MapElites.extended cfg e st ≠ [] := by
        intro h0
        have := len_parents cfg.ga e ⟨st.population, st.firstIter⟩
        simp only [MapElites.extended, List.append_eq_nil_iff] at h0
        rw [h0.1] at this
        simp only [List.length_nil] at this
        exact hg (List.length_eq_zero_iff.1 (by omega))
      have : ∀ cell ∈ cfg.grid, ((MapElites.extended cfg e st)[MapElites.pick cfg.A cfg.sense (MapElites.extended cfg e st) cell]?).isSome := by
        intro cell _
        rw [List.getElem?_eq_getElem]
        · rfl
        · have hne : (MapElites.extended cfg e st).map (fun r => MapElites.processed cfg.sense cell r.ev) ≠ [] := by simpa using hx
          have := hA _ hne
          simp only [List.length_map] at this
          unfold MapElites.pick
          revert this
          cases cfg.sense <;> intro this <;> [exact this.1; exact this.2]
      have hfm : ∀ (l : List (MapElites.Cell K)) (g : MapElites.Cell K → Option (Row V (MapElites.Ev K))), (∀ x ∈ l, (g x).isSome) → (l.filterMap g).length = l.length := by
        intro l g hh
        induction l with
        | nil => rfl
        | cons x xs ih =>
          obtain ⟨y, hy⟩ := Option.isSome_iff_exists.1 (hh x (List.mem_cons_self ..))
          rw [List.filterMap_cons_some hy, List.length_cons, ih (fun z hz => hh z (List.mem_cons_of_mem _ hz)), List.length_cons]
      exact hfm _ _ this
  have key : ∀ (envs : List (Env V (MapElites.Ev K))), (∀ e ∈ envs, Makes cfg.grid.length e (c e)) → ∀ st : MapElites.State V K, st.population.length = cfg.grid.length → st.firstIter = false →
      evaluated (recordMap cfg envs st) = (if cfg.reEvaluate then envs.length else 0) * cfg.grid.length + (envs.map c).sum := by
    intro envs
    induction envs with
    | nil => intro _ st _ _; simp [recordMap, evaluated]
    | cons e es ih =>
      intro hc st hl hf
      have h1 := evaluated_events cfg.ga e ⟨st.population, st.firstIter⟩ (c := c e) (by simp only [hl]; exact hc e (List.mem_cons_self ..))
      have h2 := ih (fun e hm => hc e (List.mem_cons_of_mem _ hm)) (MapElites.step cfg st e) (hstep e st hl) rfl
      rw [recordMap, evaluated_append, h1, h2]
      simp only [hl, hf, MapElites.Cfg.ga]
      cases cfg.reEvaluate <;> simp [Nat.succ_mul] <;> omega
  cases envs with
  | nil => simp [recordMap, evaluated]
  | cons e es =>
    have hl : (MapElites.init vals : MapElites.State V K).population.length = cfg.grid.length := by simpa [MapElites.init] using hv
    have h1 := evaluated_events cfg.ga e ⟨(MapElites.init vals : MapElites.State V K).population, true⟩ (c := c e) (by simp only [hl]; exact hc e (List.mem_cons_self ..))
    have h2 := key es (fun e hm => hc e (List.mem_cons_of_mem _ hm)) (MapElites.step cfg (MapElites.init vals) e) (hstep e _ hl) rfl
    have : (MapElites.init vals : MapElites.State V K).firstIter = true := rfl
    rw [recordMap, evaluated_append, this, h1, h2]
    simp only [hl, MapElites.Cfg.ga]
    cases cfg.reEvaluate
    · have : min 1 (e :: es).length = 1 := by simp
      simp; omega
    · simp [Nat.succ_mul]; omega

/-- **C169**, budget of `Cosyne`: the population once, and in every step the elites (again), the children and a permuted population. -/
theorem C169_budget_cosyne [LinearOrder K] {cfg : GA.CosyneCfg K} (h : NanSorterSpec cfg.sort) (c : CosyneEnv V K → Nat) (ds : List (CosyneEnv V K))
    (hc : ∀ d ∈ ds, (∀ rows, rows.length = cfg.popsize / 4 → (d.breed rows).length = c d) ∧ GA.SameLength d.permute) (vals : List V) (hv : vals.length = cfg.popsize) :
    evaluated (cosyneRecord cfg ds (GA.init vals)) = min 1 ds.length * cfg.popsize + ds.length * (min (cfg.numElites.getD 0) cfg.popsize + cfg.popsize) + (ds.map c).sum := by
  have hev : ∀ (d : CosyneEnv V K) (st : State V K), st.population.length = cfg.popsize → ((∀ rows, rows.length = cfg.popsize / 4 → (d.breed rows).length = c d) ∧ GA.SameLength d.permute) →
      evaluated (cosyneEvents cfg d st) = (if st.firstIter then cfg.popsize else 0) + (min (cfg.numElites.getD 0) cfg.popsize + cfg.popsize) + c d := by
    intro d st hl ⟨hb, hp⟩
    have hpl : (if st.firstIter then evaluate d.f0 st.population else st.population).length = cfg.popsize := by split <;> simp [len_evaluate, hl]
    obtain ⟨_, _, hrel, _⟩ := GA.takeBest_split h cfg.sense (max (cfg.numElites.getD 0) (cfg.popsize / 4)) (if st.firstIter then evaluate d.f0 st.population else st.population)
    rw [hpl] at hrel
    have hbr := hb ((takeBest cfg.sort cfg.sense (max (cfg.numElites.getD 0) (cfg.popsize / 4)) (if st.firstIter then evaluate d.f0 st.population else st.population)).take (cfg.popsize / 4))
      (by rw [List.length_take, hrel]; have := Nat.div_le_self cfg.popsize 4; omega)
    have hpp := hp (if st.firstIter then evaluate d.f0 st.population else st.population)
    rw [hpl] at hpp
    have hel : (match cfg.numElites with
        | some e => if e ≥ 1 then (takeBest cfg.sort cfg.sense (max (cfg.numElites.getD 0) (cfg.popsize / 4)) (if st.firstIter then evaluate d.f0 st.population else st.population)).take e else []
        | none => []).length = min (cfg.numElites.getD 0) cfg.popsize := by
      cases hn : cfg.numElites with
      | none => simp
      | some e =>
        rw [hn] at hrel
        simp only [Option.getD_some] at hrel ⊢
        split
        · rw [List.length_take, hrel]; omega
        · simp; omega
    unfold cosyneEvents
    dsimp only
    rw [evaluated_append]
    simp only [evaluated, List.length_map, List.length_append, hbr, hpp]
    rw [show ∀ a b c : Nat, a + (b + c) = a + b + c from fun a b c => by omega] at *
    have hel' := hel
    cases hn : cfg.numElites <;> cases hf : st.firstIter <;> simp [hn, hf] at hel' ⊢ <;> simp [evaluated, hl] <;> omega
  have key : ∀ (ds : List (CosyneEnv V K)), (∀ d ∈ ds, (∀ rows, rows.length = cfg.popsize / 4 → (d.breed rows).length = c d) ∧ GA.SameLength d.permute) →
      ∀ st : State V K, st.population.length = cfg.popsize → st.firstIter = false →
      evaluated (cosyneRecord cfg ds st) = ds.length * (min (cfg.numElites.getD 0) cfg.popsize + cfg.popsize) + (ds.map c).sum := by
    intro ds
    induction ds with
    | nil => intro _ st _ _; simp [cosyneRecord, evaluated]
    | cons d ds ih =>
      intro hc st hl hf
      have hd := hc d (List.mem_cons_self ..)
      have h2 := ih (fun e hm => hc e (List.mem_cons_of_mem _ hm)) (cosyneStep cfg d st) (GA.C25_population_size h d.f0 d.f d.breed d.permute hd.2 st hl) rfl
      rw [cosyneRecord, evaluated_append, hev d st hl hd, h2, hf]
      simp only [Bool.false_eq_true, if_false, List.length_cons, Nat.succ_mul, List.map_cons, List.sum_cons]; omega
  cases ds with
  | nil => simp [cosyneRecord, evaluated]
  | cons d ds =>
    have hl : (GA.init vals : State V K).population.length = cfg.popsize := by simpa [GA.init] using hv
    have hd := hc d (List.mem_cons_self ..)
    have h2 := key ds (fun e hm => hc e (List.mem_cons_of_mem _ hm)) (cosyneStep cfg d (GA.init vals)) (GA.C25_population_size h d.f0 d.f d.breed d.permute hd.2 _ hl) rfl
    rw [cosyneRecord, evaluated_append, hev d _ hl hd, h2]
    have : (GA.init vals : State V K).firstIter = true := rfl
    have hm : min 1 (d :: ds).length = 1 := by simp
    simp only [this, if_true, List.length_cons, Nat.succ_mul, List.map_cons, List.sum_cons] at hm ⊢
    rw [hm]; omega

/-! ### Freshness -/

theorem mem_step_population (cfg : GA.Cfg K) (e : Env V K) (st : State V K) (r : Row V K) (hr : r ∈ (GA.step cfg e st).population) :
    r ∈ (GA.makeExtended cfg e st).2.2 ∨ (cfg.elitist = true ∧ r ∈ (GA.makeExtended cfg e st).2.1) ∨
      (cfg.elitist = false ∧ (GA.makeExtended cfg e st).2.2.length < cfg.popsize ∧ r ∈ (GA.makeExtended cfg e st).1.population) := by
  unfold GA.step at hr
  dsimp only at hr
  split at hr
  · rename_i he
    rcases List.mem_append.1 (sub_takeBest _ _ _ _ r hr) with h | h
    · exact .inr (.inl ⟨he, h⟩)
    · exact .inl h
  · rename_i he
    split at hr
    · rename_i hlt
      rcases List.mem_append.1 hr with h | h
      · exact .inr (.inr ⟨by simpa using he, hlt, sub_takeBest _ _ _ _ r h⟩)
      · exact .inl h
    · split at hr
      · exact .inl hr
      · exact .inl (sub_takeBest _ _ _ _ r hr)

/-- **C169**, freshness: with `re_evaluate=True` every evaluation of the population after a step was made in this step (partial: not if the search is not elitist, evaluates parents and children
together, and makes fewer children than `popsize`). -/
theorem C169_fresh_partial (cfg : GA.Cfg K) (hre : cfg.reEvaluate = true) (e : Env V K) (st : State V K)
    (hg : cfg.elitist = true ∨ cfg.parentsFirst = true ∨ cfg.popsize ≤ (e.ops st.population).length) :
    ∀ r ∈ (GA.step cfg e st).population, r.ev = some (e.f1 r.val) ∨ r.ev = some (e.f2 r.val) := by
  intro r hr
  have h := mem_step_population cfg e st r hr
  unfold GA.makeExtended at h
  simp only [hre, if_true] at h
  cases hp : cfg.parentsFirst with
  | true =>
    simp only [hp, if_true] at h
    rcases h with h | ⟨-, h⟩ | ⟨-, -, h⟩
    · exact .inr (ev_evaluate _ _ r h)
    · exact .inl (ev_evaluate _ _ r h)
    · exact .inl (ev_evaluate _ _ r h)
  | false =>
    simp only [hp, Bool.false_eq_true, if_false] at h
    rcases h with h | ⟨-, h⟩ | ⟨he, hlt, -⟩
    · exact .inl (ev_evaluate _ _ r (List.mem_of_mem_drop h))
    · exact .inl (ev_evaluate _ _ r (List.mem_of_mem_take h))
    · exfalso
      rcases hg with hg | hg | hg
      · rw [he] at hg; exact Bool.false_ne_true hg
      · rw [hp] at hg; exact Bool.false_ne_true hg
      · simp only [List.length_drop, len_evaluate, List.length_append] at hlt; omega

/-- **C169**, each solution is evaluated once: with `re_evaluate=False`, a step after the first evaluates exactly the children, and every solution of the next population is an unchanged solution
of the old one or a child as evaluated in this step. -/
theorem C169_once (cfg : GA.Cfg K) (hre : cfg.reEvaluate = false) (e : Env V K) (st : State V K) (hf : st.firstIter = false) :
    events cfg e st = [.operators st.population, .evaluate ((e.ops st.population).map (·.val))] ∧
    ∀ r ∈ (GA.step cfg e st).population, r ∈ st.population ∨ (r.ev = some (e.f2 r.val) ∧ ∃ q ∈ e.ops st.population, q.val = r.val) := by
  refine ⟨by simp [events, makeExtended, hre, hf], fun r hr => ?_⟩
  have h := mem_step_population cfg e st r hr
  unfold GA.makeExtended at h
  simp only [hre, hf, Bool.false_eq_true, if_false] at h
  rcases h with h | ⟨-, h⟩ | ⟨-, -, h⟩
  · obtain ⟨q, hq, rfl⟩ := List.mem_map.1 h
    exact .inr ⟨rfl, q, hq, rfl⟩
  · exact .inl h
  · exact .inl h

/-- **C169**, `Cosyne` always evaluates everything it keeps anew, in the last evaluation of the step. -/
theorem C169_cosyne_fresh (cfg : GA.CosyneCfg K) (d : CosyneEnv V K) (st : State V K) :
    ∃ vals, (cosyneEvents cfg d st).getLast? = some (.evaluate vals) ∧ ∀ r ∈ (cosyneStep cfg d st).population, r.val ∈ vals ∧ r.ev = some (d.f r.val) := by
  refine ⟨_, by simp [cosyneEvents]; rfl, fun r hr => ?_⟩
  have h := sub_takeBest _ _ _ _ r hr
  refine ⟨?_, ev_evaluate _ _ r h⟩
  have := List.mem_map_of_mem (f := Row.val) h
  rw [val_evaluate] at this
  cases hn : cfg.numElites <;> simp [hn] at this ⊢ <;> exact this

/-! ### What the operators see -/

theorem record_init_ev (cfg : GA.Cfg K) (hg : cfg.reEvaluate = false ∨ cfg.parentsFirst = true) (e : Env V K) (st : State V K)
    (hst : st.firstIter = false → ∀ r ∈ st.population, r.ev ≠ none) :
    (∀ rows, Event.operators rows ∈ events cfg e st → ∀ r ∈ rows, r.ev ≠ none) ∧ ∀ r ∈ (GA.step cfg e st).population, r.ev ≠ none := by
  have hev : ∀ (f : V → K) (rows : List (Row V K)), ∀ r ∈ evaluate f rows, r.ev ≠ none := fun f rows r hr => by rw [ev_evaluate f rows r hr]; exact Option.some_ne_none _
  constructor
  · intro rows hm
    unfold events makeExtended at hm
    cases hr : cfg.reEvaluate with
    | true =>
      have hp : cfg.parentsFirst = true := by rcases hg with h | h <;> [(rw [hr] at h; exact absurd h (by decide)); exact h]
      simp [hr, hp] at hm
      rw [hm]; exact hev _ _
    | false =>
      cases hf : st.firstIter with
      | true => simp [hr, hf] at hm; rw [hm]; exact hev _ _
      | false => simp [hr, hf] at hm; rw [hm]; exact hst hf
  · intro r hr
    have h := mem_step_population cfg e st r hr
    unfold GA.makeExtended at h
    cases hre : cfg.reEvaluate with
    | true =>
      have hp : cfg.parentsFirst = true := by rcases hg with h | h <;> [(rw [hre] at h; exact absurd h (by decide)); exact h]
      simp only [hre, hp, if_true] at h
      rcases h with h | ⟨-, h⟩ | ⟨-, -, h⟩ <;> exact hev _ _ r h
    | false =>
      simp only [hre, Bool.false_eq_true, if_false] at h
      have hpop : ∀ r ∈ (if st.firstIter = true then evaluate e.f1 st.population else st.population), r.ev ≠ none := by
        cases hf : st.firstIter with
        | true => simp only [if_true]; exact hev _ _
        | false => simp only [Bool.false_eq_true, if_false]; exact hst hf
      rcases h with h | ⟨-, h⟩ | ⟨-, -, h⟩
      · exact hev _ _ r h
      · exact hpop r h
      · exact hpop r h

/-- **C169**, what the operators see: whenever a cross-over may be used and `re_evaluate_parents_first=False` was not asked for, all solutions given to the operators, in every step of every run, are
evaluated. -/
theorem C169_operators_see_evaluations (a : Args) (fl : Flags) (ha : settle a = .ok fl) (hx : a.MayCross) (hpf : a.parentsFirst ≠ some false) (sort : Selection.Sorter (Option K))
    (s : BestWorst.Sense) (popsize : Nat) (elitist : Bool) (envs : List (Env V K)) (vals : List V) :
    ∀ rows, Event.operators rows ∈ record ⟨sort, s, popsize, elitist, fl.reEvaluate, fl.parentsFirst⟩ envs (GA.init vals) → ∀ r ∈ rows, r.ev ≠ none := by
  have hg := ((C169_settings a).2 fl ha).2.2.2 hx hpf
  have key : ∀ (envs : List (Env V K)) (st : State V K), (st.firstIter = false → ∀ r ∈ st.population, r.ev ≠ none) →
      ∀ rows, Event.operators rows ∈ record ⟨sort, s, popsize, elitist, fl.reEvaluate, fl.parentsFirst⟩ envs st → ∀ r ∈ rows, r.ev ≠ none := by
    intro envs
    induction envs with
    | nil => intro st _ rows hm; simp [record] at hm
    | cons e es ih =>
      intro st hst rows hm
      obtain ⟨h1, h2⟩ := record_init_ev ⟨sort, s, popsize, elitist, fl.reEvaluate, fl.parentsFirst⟩ hg e st hst
      rcases List.mem_append.1 hm with hm | hm
      · exact h1 rows hm
      · exact ih _ (fun _ => h2) rows hm
  exact key envs _ (fun h => by simp [GA.init] at h)

/-- **C169**, with `re_evaluate=True` and parents first, the evaluations that the operators see are of this step. -/
theorem C169_operators_see_fresh (cfg : GA.Cfg K) (hre : cfg.reEvaluate = true) (hpf : cfg.parentsFirst = true) (e : Env V K) (st : State V K) :
    ∀ rows, Event.operators rows ∈ events cfg e st → ∀ r ∈ rows, r.ev = some (e.f1 r.val) := by
  intro rows hm
  simp [events, makeExtended, hre, hpf] at hm
  rw [hm]; exact ev_evaluate _ _

/-- **C169 is violated** (stale evaluations): `re_evaluate=True`, not elitist, operators without cross-over (so that parents and children are evaluated together), one child per step. The fitness
function is `v` in the first step and `100 + v` in the second; after the second step the population still holds a solution with the evaluation of the first step. -/
theorem C169_violated_stale :
    settle ⟨false, 1, false, true, none⟩ = .ok ⟨true, false⟩ ∧
    (GA.run (⟨GA.qSorter, .min, 2, false, true, false⟩ : GA.Cfg ℚ) [⟨id, id, useOperators [fun _ => [7]]⟩, ⟨fun v => 100 + v, fun v => 100 + v, useOperators [fun _ => [8]]⟩] (GA.init [5, 6])).population =
      [⟨7, some 7⟩, ⟨8, some 108⟩] := by
  constructor
  · rfl
  · decide +kernel

/-- **C169 is violated** (order of operators): if a mutation comes before a cross-over, the cross-over is shown no evaluations: its children do not depend on the fitnesses of the parents at all, whatever
mutation and cross-over are. -/
theorem C169_violated_order (mutate : List V → List V) (cross : Operator V K) (f g : V → K) (pop : List (Row V K)) :
    useOperators [fun rows => mutate (rows.map (·.val)), cross] (evaluate f pop) = useOperators [fun rows => mutate (rows.map (·.val)), cross] (evaluate g pop) := by
  simp [useOperators, val_evaluate]

/-! ### Non-vacuity -/

/-- In the usual order, the children do depend on the fitnesses: a cross-over that picks the first solution with a positive evaluation. -/
example : useOperators [fun rows => (rows.filter fun r => r.ev.any (0 < ·)).map (·.val), fun rows => rows.map fun r => r.val + 1] (evaluate (fun v : ℚ => v) [⟨-1, none⟩, ⟨2, none⟩]) = [⟨3, none⟩] ∧
    useOperators [fun rows => (rows.filter fun r => r.ev.any (0 < ·)).map (·.val), fun rows => rows.map fun r => r.val + 1] (evaluate (fun v : ℚ => -v) [⟨-1, none⟩, ⟨2, none⟩]) = [⟨0, none⟩] := by
  decide +kernel

/-- Three steps with two children each and a population of two: 2 + 3·2 solutions, or 3·2 + 3·2. -/
example : evaluated (record (⟨GA.qSorter, .min, 2, true, false, true⟩ : GA.Cfg ℚ) (List.replicate 3 ⟨id, id, useOperators [fun _ => [7, 1]]⟩) (GA.init [5, 6])) = 8 ∧
    evaluated (record (⟨GA.qSorter, .min, 2, true, true, true⟩ : GA.Cfg ℚ) (List.replicate 3 ⟨id, id, useOperators [fun _ => [7, 1]]⟩) (GA.init [5, 6])) = 12 := by
  decide +kernel

/-- Operators make as many children as assumed. -/
example : Makes 2 (⟨id, id, useOperators [fun _ => [7, 1]]⟩ : Env ℚ ℚ) 2 := fun _ _ => rfl

/-- `SteadyStateGA` without operators, and a `GeneticAlgorithm` with a cross-over. -/
example : settle ⟨true, 0, false, true, none⟩ = .ok ⟨true, true⟩ ∧ settle ⟨false, 2, true, true, none⟩ = .ok ⟨true, true⟩ ∧ settle ⟨false, 2, true, false, some true⟩ = .error .valueError := ⟨rfl, rfl, rfl⟩

end EvoTorch.Budget
