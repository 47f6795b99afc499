import Verif.Model.Searcher
import Verif.Props.Hook
/-!
C40: `run(n)` is `n` steps, and the hooks fire in order.
-/
namespace EvoTorch.Searcher
open EvoTorch.Hook
variable {W K V : Type} [DecidableEq K]

/-- What one step does, in order. -/
def stepEvents (c : Config W K V) : List Event :=
  (List.range c.beforeHook.funcs.length).map .before ++ [.core] ++ (List.range c.afterHook.funcs.length).map .after ++
    (List.range c.logHook.funcs.length).map .log

/-- What the end of a run does. -/
def endEvents (c : Config W K V) : List Event := (List.range c.endHook.funcs.length).map .endOfRun

/-- The calls of a hook, as events. -/
theorem call_events (h : Hook W K V) (args : List V) (w : W) (mk : Nat → Event) :
    (∃ n, n ≤ h.funcs.length ∧ (call h args [] w).1.calls.map (fun c => mk c.index) = (List.range n).map mk ∧
      ∀ acc, (call h args [] w).2 = .ok acc → n = h.funcs.length) := by
  obtain ⟨n, hn, hc, ho, _⟩ := C38_calls h args [] w
  exact ⟨n, hn, by rw [hc, expectedCalls, List.map_map]; rfl, ho⟩

theorem range_prefix {n m : Nat} (h : n ≤ m) (mk : Nat → Event) : (List.range n).map mk <+: (List.range m).map mk := by
  refine List.IsPrefix.map mk ?_
  rw [show m = n + (m - n) by omega, List.range_add]
  exact ⟨_, rfl⟩

/-- One step: on success all events, in order; otherwise some of the first ones. The step count goes up by one exactly if the algorithm's own step succeeded. -/
theorem step_events (c : Config W K V) (a : Alg W K V) :
    ∃ evs, (step c a).state.trace = a.trace ++ evs ∧ evs <+: stepEvents c ∧
      ((step c a).result = .ok () → evs = stepEvents c ∧ (step c a).state.steps = a.steps + 1) ∧
      ((step c a).state.steps = a.steps ∨ (step c a).state.steps = a.steps + 1) := by
  obtain ⟨n1, hn1, hc1, ho1⟩ := call_events c.beforeHook [] a.world .before
  have hB : stepEvents c = (List.range c.beforeHook.funcs.length).map .before ++ ([.core] ++ ((List.range c.afterHook.funcs.length).map .after ++
      (List.range c.logHook.funcs.length).map .log)) := by simp [stepEvents]
  unfold step
  simp only
  cases hr1 : (call c.beforeHook [] [] a.world).2 with
  | error e =>
    refine ⟨(List.range n1).map .before, by simp [afterCall, hc1], ?_, by simp, Or.inl (by simp [afterCall])⟩
    rw [hB]
    exact (range_prefix hn1 _).trans ⟨_, rfl⟩
  | ok acc =>
    have e1 := ho1 acc hr1
    subst e1
    unfold stepCore
    simp only
    cases hr2 : (c.core (afterCall a .before (call c.beforeHook [] [] a.world).1).world).2 with
    | error e =>
      refine ⟨(List.range c.beforeHook.funcs.length).map .before ++ [.core], by simp [afterCall, hc1], ?_, by simp, Or.inl (by simp [afterCall])⟩
      rw [hB]
      exact ⟨(List.range c.afterHook.funcs.length).map .after ++ (List.range c.logHook.funcs.length).map .log, by simp⟩
    | ok u =>
      simp only
      generalize hw : (c.core (afterCall a .before (call c.beforeHook [] [] a.world).1).world).1 = w2
      obtain ⟨n3, hn3, hc3, ho3⟩ := call_events c.afterHook [] w2 .after
      cases hr3 : (accumulateDict c.afterHook [] [] w2).2 with
      | error e =>
        refine ⟨(List.range c.beforeHook.funcs.length).map .before ++ [.core] ++ (List.range n3).map .after, ?_, ?_, by simp, Or.inr (by simp [afterCall])⟩
        · simp only [accumulateDict, afterCall, hc1, hc3, List.append_assoc]
        · rw [hB, List.append_assoc, List.prefix_append_right_inj, List.prefix_append_right_inj]
          exact (range_prefix hn3 _).trans ⟨_, rfl⟩
      | ok extra =>
        have e3 : n3 = c.afterHook.funcs.length := by
          unfold accumulateDict at hr3
          simp only at hr3
          cases hcall : (call c.afterHook [] [] w2).2 with
          | error e => rw [hcall] at hr3; cases hr3
          | ok acc3 => exact ho3 acc3 hcall
        subst e3
        simp only
        unfold stepLog
        split
        · rename_i hlog
          obtain ⟨n4, hn4, hc4, ho4⟩ := call_events c.logHook [c.asValue (fullStatus c
            { afterCall
                { world := w2, steps := (afterCall a .before (call c.beforeHook [] [] a.world).1).steps + 1,
                  written := dictUpdate (dictUpdate [] [(c.iterKey, c.count ((afterCall a .before (call c.beforeHook [] [] a.world).1).steps + 1))]) (c.problemStatus w2),
                  trace := (afterCall a .before (call c.beforeHook [] [] a.world).1).trace ++ [.core] } .after (accumulateDict c.afterHook [] [] w2).1 with
              written := dictUpdate (afterCall
                { world := w2, steps := (afterCall a .before (call c.beforeHook [] [] a.world).1).steps + 1,
                  written := dictUpdate (dictUpdate [] [(c.iterKey, c.count ((afterCall a .before (call c.beforeHook [] [] a.world).1).steps + 1))]) (c.problemStatus w2),
                  trace := (afterCall a .before (call c.beforeHook [] [] a.world).1).trace ++ [.core] } .after (accumulateDict c.afterHook [] [] w2).1).written extra })]
            (accumulateDict c.afterHook [] [] w2).1.world .log
          refine ⟨(List.range c.beforeHook.funcs.length).map .before ++ [.core] ++ (List.range c.afterHook.funcs.length).map .after ++ (List.range n4).map .log,
            ?_, ?_, ?_, Or.inr rfl⟩
          · simp only [afterCall] at hc4 ⊢
            rw [hc4]
            simp only [accumulateDict, hc1, hc3, List.append_assoc]
          · rw [stepEvents, List.prefix_append_right_inj]
            exact range_prefix hn4 _
          · intro hok
            refine ⟨?_, rfl⟩
            have : n4 = c.logHook.funcs.length := by
              simp only [afterCall] at hok ho4
              cases hcall : (call c.logHook [c.asValue (fullStatus c
                { world := (accumulateDict c.afterHook [] [] w2).1.world, steps := a.steps + 1,
                  written := dictUpdate (dictUpdate (dictUpdate [] [(c.iterKey, c.count (a.steps + 1))]) (c.problemStatus w2)) extra,
                  trace := a.trace ++ (call c.beforeHook [] [] a.world).1.calls.map (fun c => .before c.index) ++ [.core] ++
                    (accumulateDict c.afterHook [] [] w2).1.calls.map (fun c => .after c.index) })] []
                (accumulateDict c.afterHook [] [] w2).1.world).2 with
              | error e => rw [hcall] at hok; cases hok
              | ok acc4 => exact ho4 acc4 hcall
            subst this
            rfl
        · rename_i hlog
          have hl : c.logHook.funcs.length = 0 := by omega
          refine ⟨stepEvents c, ?_, List.prefix_refl _, fun _ => ⟨rfl, rfl⟩, Or.inr rfl⟩
          simp only [accumulateDict, afterCall, hc1, hc3, stepEvents, hl, List.range_zero, List.map_nil, List.append_nil, List.append_assoc]

/-- C40: a run that ends without an exception performs exactly `n` steps (none if `n` is negative); its record is `n` times the record of a step - the
before-step functions in order, the algorithm's own step, the after-step functions, the log functions, each once - followed by the end-of-run functions, each once; and
the step count has grown by `n`. -/
theorem C40_run (c : Config W K V) (n : Int) (a : Alg W K V) (hok : (run c n a).result = .ok ()) :
    (run c n a).state.trace = a.trace ++ (List.replicate n.toNat (stepEvents c)).flatten ++ endEvents c ∧ (run c n a).state.steps = a.steps + n.toNat := by
  have hs : ∀ (m : Nat) (a : Alg W K V), (steps c m a).result = .ok () →
      (steps c m a).state.trace = a.trace ++ (List.replicate m (stepEvents c)).flatten ∧ (steps c m a).state.steps = a.steps + m := by
    intro m
    induction m with
    | zero => intro a _; simp [steps]
    | succ m ih =>
      intro a h
      rw [steps] at h ⊢
      obtain ⟨evs, h1, _, h3, _⟩ := step_events c a
      cases hr : (step c a).result with
      | error e => rw [hr] at h; cases h
      | ok u =>
        rw [hr] at h
        simp only at h ⊢
        obtain ⟨he, hst⟩ := h3 hr
        obtain ⟨h4, h5⟩ := ih _ h
        refine ⟨?_, by rw [h5, hst]; omega⟩
        rw [h4, h1, he, List.replicate_succ, List.flatten_cons, List.append_assoc]
  unfold run at hok ⊢
  simp only at hok ⊢
  cases hr : (steps c n.toNat a).result with
  | error e => rw [hr] at hok; cases hok
  | ok u =>
    rw [hr] at hok
    obtain ⟨h1, h2⟩ := hs _ _ hr
    simp only at hok ⊢
    by_cases hend : c.endHook.funcs.length ≥ 1
    · simp only [hend, if_true] at hok ⊢
      obtain ⟨k, hk, hc, ho⟩ := call_events c.endHook [c.asValue (fullStatus c (steps c n.toNat a).state)] (steps c n.toNat a).state.world .endOfRun
      have : k = c.endHook.funcs.length := by
        cases hcall : (call c.endHook [c.asValue (fullStatus c (steps c n.toNat a).state)] [] (steps c n.toNat a).state.world).2 with
        | error e => rw [hcall] at hok; cases hok
        | ok acc => exact ho acc hcall
      subst this
      refine ⟨?_, h2⟩
      simp only [afterCall, hc, h1, endEvents]
    · have h0 : c.endHook.funcs.length = 0 := by omega
      simp only [hend, if_false]
      exact ⟨by rw [h1, endEvents, h0]; simp, h2⟩

/-- C40, when something raises: what happened is the first part of what would have happened; in particular nothing runs twice or out of order, and the
end-of-run functions run only if all `n` steps did. -/
theorem C40_run_exception (c : Config W K V) (n : Int) (a : Alg W K V) (e : PyErr) (herr : (run c n a).result = .error e) :
    ∃ evs, (run c n a).state.trace = a.trace ++ evs ∧ evs <+: (List.replicate n.toNat (stepEvents c)).flatten ++ endEvents c ∧
      a.steps ≤ (run c n a).state.steps ∧ (run c n a).state.steps ≤ a.steps + n.toNat := by
  have hs : ∀ (m : Nat) (a : Alg W K V), ∃ evs, (steps c m a).state.trace = a.trace ++ evs ∧ evs <+: (List.replicate m (stepEvents c)).flatten ∧
      ((steps c m a).result = .ok () → evs = (List.replicate m (stepEvents c)).flatten) ∧
      a.steps ≤ (steps c m a).state.steps ∧ (steps c m a).state.steps ≤ a.steps + m := by
    intro m
    induction m with
    | zero => intro a; exact ⟨[], by simp [steps], by simp, by simp, by simp [steps], by simp [steps]⟩
    | succ m ih =>
      intro a
      rw [steps]
      obtain ⟨evs, h1, h2, h3, h4⟩ := step_events c a
      cases hr : (step c a).result with
      | error e =>
        refine ⟨evs, h1, ?_, by simp, ?_, ?_⟩
        · rw [List.replicate_succ, List.flatten_cons]; exact h2.trans ⟨_, rfl⟩
        · simp only; omega
        · simp only; omega
      | ok u =>
        obtain ⟨he, hst⟩ := h3 hr
        obtain ⟨evs', i1, i2, i3, i4, i5⟩ := ih (step c a).state
        simp only
        refine ⟨stepEvents c ++ evs', by rw [i1, h1, he, List.append_assoc], ?_, fun h => by rw [i3 h, List.replicate_succ, List.flatten_cons], by omega, by omega⟩
        rw [List.replicate_succ, List.flatten_cons, List.prefix_append_right_inj]
        exact i2
  unfold run at herr ⊢
  simp only at herr ⊢
  obtain ⟨evs, h1, h2, h3, h4, h5⟩ := hs n.toNat a
  cases hr : (steps c n.toNat a).result with
  | error e => exact ⟨evs, h1, h2.trans ⟨_, rfl⟩, h4, h5⟩
  | ok u =>
    rw [hr] at herr
    simp only at herr ⊢
    by_cases hend : c.endHook.funcs.length ≥ 1
    · simp only [hend, if_true] at herr ⊢
      obtain ⟨k, hk, hc, ho⟩ := call_events c.endHook [c.asValue (fullStatus c (steps c n.toNat a).state)] (steps c n.toNat a).state.world .endOfRun
      refine ⟨(List.replicate n.toNat (stepEvents c)).flatten ++ (List.range k).map .endOfRun, ?_, ?_, h4, h5⟩
      · simp only [afterCall, hc, h1, h3 hr, List.append_assoc]
      · rw [List.prefix_append_right_inj, endEvents]; exact range_prefix hk _
    · simp only [hend, if_false] at herr; cases herr

/-- After a successful step, the status has, in order of precedence, what the after-step hook returned, the status of the problem, and the step count under its
key; nothing written in earlier steps is left. -/
theorem C40_status_after_step (c : Config W K V) (a : Alg W K V) (hok : (step c a).result = .ok ()) :
    ∃ (w : W) (extra : Dict K V), (accumulateDict c.afterHook [] [] w).2 = .ok extra ∧
      ∀ k, dictGet (step c a).state.written k =
        ((dictGet extra.reverse k).or (dictGet (c.problemStatus w).reverse k)).or (if c.iterKey = k then some (c.count (a.steps + 1)) else none) := by
  unfold step at hok ⊢
  simp only at hok ⊢
  cases hr1 : (call c.beforeHook [] [] a.world).2 with
  | error e => rw [hr1] at hok; cases hok
  | ok acc =>
    rw [hr1] at hok
    unfold stepCore at hok ⊢
    simp only at hok ⊢
    cases hr2 : (c.core (afterCall a .before (call c.beforeHook [] [] a.world).1).world).2 with
    | error e => rw [hr2] at hok; cases hok
    | ok u =>
      rw [hr2] at hok
      simp only at hok ⊢
      generalize hw : (c.core (afterCall a .before (call c.beforeHook [] [] a.world).1).world).1 = w2 at hok ⊢
      cases hr3 : (accumulateDict c.afterHook [] [] w2).2 with
      | error e => rw [hr3] at hok; cases hok
      | ok extra =>
        refine ⟨w2, extra, hr3, fun k => ?_⟩
        simp only
        have hwr : ∀ b : Alg W K V, (stepLog c b).state.written = b.written := by
          intro b; unfold stepLog; split <;> rfl
        rw [hwr]
        simp only [afterCall, dictGet_update, Option.or_assoc]
        congr 2
        by_cases hk : c.iterKey = k <;> simp [dictGet, hk]

/-! ### Concrete case -/

/-- State: a number, which every function and step increments. -/
def tick : Fn Nat Nat Nat := fun _ _ w => (w + 1, .ok .none)

def sample : Config Nat Nat Nat where
  beforeHook := ⟨[tick], [], []⟩
  afterHook := ⟨[tick, fun _ _ w => (w + 1, .ok (.mapping [(5, w)]))], [], []⟩
  logHook := ⟨[tick], [], []⟩
  endHook := ⟨[tick], [], []⟩
  core := fun w => (w + 1, .ok ())
  problemStatus := fun w => [(7, w)]
  iterKey := 0
  count := fun n => n
  getters := fun _ => []
  asValue := fun _ => 0

example : (run sample 2 ⟨0, 3, [], []⟩).state.trace =
    [.before 0, .core, .after 0, .after 1, .log 0, .before 0, .core, .after 0, .after 1, .log 0, .endOfRun 0] ∧ (run sample 2 ⟨0, 3, [], []⟩).state.steps = 5 ∧
    (run sample 2 ⟨0, 3, [], []⟩).state.written = [(0, 5), (7, 7), (5, 8)] := by decide

example : (run sample 2 ⟨0, 3, [], []⟩).state.steps = 3 + 2 := (C40_run sample 2 ⟨0, 3, [], []⟩ rfl).2

/-- A log function that raises ends the run in the first step. -/
example : ∃ evs, (run { sample with logHook := ⟨[fun _ _ w => (w, .error .valueError)], [], []⟩ } 2 ⟨0, 3, [], []⟩).state.trace = [] ++ evs ∧
    evs <+: (List.replicate 2 (stepEvents { sample with logHook := ⟨[fun _ _ w => (w, .error .valueError)], [], []⟩ })).flatten ++
      endEvents { sample with logHook := ⟨[fun _ _ w => (w, .error .valueError)], [], []⟩ } := by
  obtain ⟨evs, h1, h2, _⟩ := C40_run_exception { sample with logHook := ⟨[fun _ _ w => (w, .error .valueError)], [], []⟩ } 2 ⟨0, 3, [], []⟩ .valueError rfl
  exact ⟨evs, h1, h2⟩

end EvoTorch.Searcher
