import Verif.Model.NEConfig
import Verif.Model.Workload
import Verif.Props.Hook
import Verif.Props.VecEnvMake
import Verif.Props.StatusView
import Mathlib.Tactic.Linarith
/-!
C137: the neuroevolution problems are configured as documented: the environment, the constants and arguments of the network, the alive bonus, and the settings of the parallel evaluation.
-/
namespace EvoTorch.NEConfig
open EvoTorch
open EvoTorch.Hook (Dict dictGet dictSet dictUpdate dictGet_update dictGet_reverse KeysNodup)
open EvoTorch.ProblemConfig
open EvoTorch.VecEnvMake (Space BoxSpace Constants unboundedBox Usual policyShape)

variable {K : Type}

/-! ### Specification -/

/-- The box which a policy sees in place of an action space: a discrete space becomes an unbounded box with one element per action. -/
def policyBox (ninf pinf : K) : Space K → Space K
  | .discrete n _ => .box ⟨[n], List.replicate n ninf, List.replicate n pinf⟩
  | s => s

/-- The documented information for networks which are called. -/
def documented (ninf pinf : K) (obs act : Space K) (k : String) : Option (CVal K) :=
  if k = "obs_length" then some (.int (obs.shape.headD 0))
  else if k = "act_length" then some (.int ((policyShape act).headD 0))
  else if k = "obs_shape" then some (.shape obs.shape)
  else if k = "act_shape" then some (.shape (policyShape act))
  else if k = "obs_space" then some (.space obs)
  else if k = "act_space" then some (.space (policyBox ninf pinf act))
  else none

/-- The constants for network strings: the same, but shapes in place of spaces. -/
def documentedStr (obs act : Space K) (k : String) : Option (CVal K) :=
  if k = "obs_length" then some (.int (obs.shape.headD 0))
  else if k = "act_length" then some (.int ((policyShape act).headD 0))
  else if k = "obs_shape" ∨ k = "obs_space" then some (.shape obs.shape)
  else if k = "act_shape" ∨ k = "act_space" then some (.shape (policyShape act))
  else none

/-- A callable can be called with these keyword arguments: each of them has a place, and every parameter without a default is there. -/
def Fits {V : Type} (s : Sig) (get : String → Option V) : Prop :=
  (∀ k, get k ≠ none → s.varKw = true ∨ k ∈ s.params.map (·.1)) ∧ ∀ k, (k, false) ∈ s.params → get k ≠ none

/-! ### Lemmas -/

theorem accepts_iff (s : Sig) (k : String) : s.accepts k = true ↔ s.varKw = true ∨ k ∈ s.params.map (·.1) := by
  unfold Sig.accepts
  simp only [Bool.or_eq_true, List.any_eq_true, beq_iff_eq, List.mem_map]

theorem dictGet_ne_none {V : Type} (d : Dict String V) (k : String) : dictGet d k ≠ none ↔ k ∈ d.map (·.1) := by
  unfold dictGet
  simp only [ne_eq, Option.map_eq_none_iff, List.find?_eq_none, decide_eq_true_eq, not_forall, List.mem_map, not_not]
  constructor
  · rintro ⟨x, hx, rfl⟩; exact ⟨x, hx, rfl⟩
  · rintro ⟨x, hx, rfl⟩; exact ⟨x, hx, rfl⟩

theorem all_accepts {V : Type} (s : Sig) (d : Dict String V) :
    d.all (fun p => s.accepts p.1) = true ↔ ∀ k, dictGet d k ≠ none → s.varKw = true ∨ k ∈ s.params.map (·.1) := by
  rw [List.all_eq_true]
  constructor
  · intro h k hk
    obtain ⟨p, hp, rfl⟩ := List.mem_map.1 ((dictGet_ne_none d k).1 hk)
    exact (accepts_iff s p.1).1 (h p hp)
  · intro h p hp
    exact (accepts_iff s p.1).2 (h p.1 ((dictGet_ne_none d p.1).2 (List.mem_map_of_mem hp)))

theorem callWith_spec {V : Type} (s : Sig) (d : Dict String V) :
    (Fits s (dictGet d) → callWith s d = .ok d) ∧ (¬ Fits s (dictGet d) → callWith s d = .error .typeError) := by
  have h2 : s.params.all (fun p => p.2 || (dictGet d p.1).isSome) = true ↔ ∀ k, (k, false) ∈ s.params → dictGet d k ≠ none := by
    rw [List.all_eq_true]
    constructor
    · intro h k hk hn
      have := h (k, false) hk
      simp [hn] at this
    · rintro h ⟨k, b⟩ hp
      cases b with
      | true => rfl
      | false =>
        cases hd : dictGet d k with
        | none => exact absurd hd (h k hp)
        | some v => simp [hd]
  unfold callWith Fits
  rw [← all_accepts, ← h2]
  constructor
  · rintro ⟨a, b⟩
    simp [a, b]
  · intro h
    by_cases a : d.all (fun p => s.accepts p.1) = true
    · have b : ¬ s.params.all (fun p => p.2 || (dictGet d p.1).isSome) = true := fun b => h ⟨a, b⟩
      simp only [a, Bool.not_eq_true] at b ⊢
      simp [b]
    · simp only [Bool.not_eq_true] at a
      simp [a]

theorem vecSpaces_ok (ninf pinf : K) (ob : BoxSpace K) (hob : ob.WF) (hne : ob.shape ≠ []) (act : Space K) (hact : Usual act) :
    vecSpaces ninf pinf (.box ob) act = .ok (.box ob, policyBox ninf pinf act) := by
  obtain ⟨o1, a1, ho1, ha1, hs1⟩ := VecEnvMake.sync_ok ob act hact 1 (by simp)
  obtain ⟨o', ho', huo⟩ := VecEnvMake.C130_round_trip (.box ob) (.box ob hob hne) 1 (by simp)
  obtain ⟨a', ha', hua⟩ := VecEnvMake.C130_round_trip act hact 1 (by simp)
  rw [ho1] at ho'; cases Except.ok.inj ho'
  rw [ha1] at ha'; cases Except.ok.inj ha'
  cases hact with
  | box b hwf hne' =>
    simp [vecSpaces, VecEnvMake.dummyEnv, hs1, VecEnvMake.wrap, VecEnvMake.singleSpaces, huo, hua, VecEnvMake.mustBeSupported, Except.bind, VecEnvMake.wrapWith, VecEnvMake.Wrapped.env,
      VecEnvMake.spacesOf, policyBox]
  | discrete m =>
    simp [vecSpaces, VecEnvMake.dummyEnv, hs1, VecEnvMake.wrap, VecEnvMake.singleSpaces, huo, hua, VecEnvMake.mustBeSupported, Except.bind, VecEnvMake.wrapWith, VecEnvMake.Wrapped.env,
      VecEnvMake.spacesOf, policyBox, unboundedBox]

theorem policyBox_shape (ninf pinf : K) (act : Space K) (hact : Usual act) : (policyBox ninf pinf act).shape = policyShape act := by
  cases hact <;> rfl

/-- The six constants of `GymNE`. -/
theorem gymConstants_ok (ninf pinf : K) (ob : BoxSpace K) (hne : ob.shape ≠ []) (act : Space K) (hact : Usual act) :
    gymConstants ninf pinf (.box ob) act = .ok [("obs_length", .int (ob.shape.headD 0)), ("act_length", .int ((policyShape act).headD 0)), ("obs_space", .space (.box ob)),
      ("act_space", .space (policyBox ninf pinf act)), ("obs_shape", .shape ob.shape), ("act_shape", .shape (policyShape act))] ∧
    gymStrConstants ninf pinf (.box ob) act = .ok [("obs_space", .shape ob.shape), ("act_space", .shape (policyShape act))] := by
  obtain ⟨k, rest, hk⟩ : ∃ k rest, ob.shape = k :: rest := by
    cases h : ob.shape with
    | nil => exact absurd h hne
    | cons k rest => exact ⟨k, rest, rfl⟩
  cases hact with
  | box b hwf hne' =>
    obtain ⟨l, rest', hl⟩ : ∃ l rest', b.shape = l :: rest' := by
      cases h : b.shape with
      | nil => exact absurd h hne'
      | cons l rest' => exact ⟨l, rest', rfl⟩
    constructor <;> simp [gymConstants, gymStrConstants, lenLow, gymAct, hk, hl, Except.bind, policyShape, policyBox, VecEnvMake.Space.shape]
  | discrete m =>
    constructor <;> simp [gymConstants, gymStrConstants, lenLow, gymAct, hk, Except.bind, policyShape, policyBox, VecEnvMake.Space.shape, unboundedBox]

theorem firstLength_ok (l : List Nat) (h : l ≠ []) : VecEnvMake.firstLength l = .ok (l.headD 0) := by
  cases l with
  | nil => exact absurd rfl h
  | cons n l => rfl

/-- The six constants of `VecGymNE`. -/
theorem vecConstants_ok (ninf pinf : K) (ob : BoxSpace K) (hob : ob.WF) (hne : ob.shape ≠ []) (act : Space K) (hact : Usual act) :
    vecConstants ninf pinf (.box ob) act = .ok [("obs_length", .int (ob.shape.headD 0)), ("act_length", .int ((policyShape act).headD 0)), ("obs_shape", .shape ob.shape), ("obs_space", .space (.box ob)),
      ("act_shape", .shape (policyShape act)), ("act_space", .space (policyBox ninf pinf act))] ∧
    vecStrConstants ninf pinf (.box ob) act = .ok [("obs_length", .int (ob.shape.headD 0)), ("act_length", .int ((policyShape act).headD 0)), ("obs_shape", .shape ob.shape),
      ("obs_space", .shape ob.shape), ("act_shape", .shape (policyShape act)), ("act_space", .shape (policyShape act))] := by
  have hp : policyShape act ≠ [] := by
    cases hact with
    | box b hwf hne' => exact hne'
    | discrete m => simp [policyShape]
  have hc : VecEnvMake.constantsOf (.box ob) (policyBox ninf pinf act) = .ok ⟨ob.shape.headD 0, (policyShape act).headD 0, ob.shape, policyShape act⟩ := by
    unfold VecEnvMake.constantsOf
    rw [policyBox_shape ninf pinf act hact, firstLength_ok _ hp]
    have : VecEnvMake.firstLength (Space.box ob).shape = .ok (ob.shape.headD 0) := firstLength_ok ob.shape hne
    rw [this]
    rfl
  constructor
  · simp only [vecConstants, vecSpaces_ok ninf pinf ob hob hne act hact, Except.bind, hc]
  · simp only [vecStrConstants, vecSpaces_ok ninf pinf ob hob hne act hact, Except.bind, hc, policyBox_shape ninf pinf act hact]
    rfl

/-! ### The environment -/

/-- `GymNE` takes its environment from the one of `env` and `env_name` that is given; both or none is a ValueError. -/
theorem C137_environment {E : Type} (env envName : Option E) :
    (∀ e, gymEnv env envName = .ok e ↔ (env = some e ∧ envName = none) ∨ (env = none ∧ envName = some e)) ∧
    (env.isSome = envName.isSome → gymEnv env envName = .error .valueError) := by
  cases env <;> cases envName <;> simp [gymEnv]

/-! ### Constants and arguments of the network -/

/-- The documented information is offered by `GymNE` and by `VecGymNE` alike, for every environment with a box of observations and a box or a discrete space of actions. -/
theorem C137_constants (ninf pinf : K) (ob : BoxSpace K) (hob : ob.WF) (hne : ob.shape ≠ []) (act : Space K) (hact : Usual act) :
    ∃ c c', gymConstants ninf pinf (.box ob) act = .ok c ∧ vecConstants ninf pinf (.box ob) act = .ok c' ∧
      ∀ k, dictGet c k = documented ninf pinf (.box ob) act k ∧ dictGet c' k = documented ninf pinf (.box ob) act k := by
  refine ⟨_, _, (gymConstants_ok ninf pinf ob hne act hact).1, (vecConstants_ok ninf pinf ob hob hne act hact).1, fun k => ?_⟩
  unfold documented dictGet
  by_cases h1 : k = "obs_length"
  · subst h1; simp [VecEnvMake.Space.shape]
  by_cases h2 : k = "act_length"
  · subst h2; simp
  by_cases h3 : k = "obs_shape"
  · subst h3; simp [VecEnvMake.Space.shape]
  by_cases h4 : k = "act_shape"
  · subst h4; simp
  by_cases h5 : k = "obs_space"
  · subst h5; simp
  by_cases h6 : k = "act_space"
  · subst h6; simp
  simp [h1, h2, h3, h4, h5, h6, Ne.symm h1, Ne.symm h2, Ne.symm h3, Ne.symm h4, Ne.symm h5, Ne.symm h6]

/-- A callable network decorated with `pass_info` gets the documented information, overridden by `network_args`; one which is not decorated gets `network_args` only. It is called exactly if its
signature has a place for all that is passed, and everything it requires is there; otherwise there is a TypeError. The same holds for `GymNE` and `VecGymNE`. -/
theorem C137_callable (ninf pinf : K) (ob : BoxSpace K) (hob : ob.WF) (hne : ob.shape ≠ []) (act : Space K) (hact : Usual act) (args : Dict String (CVal K)) (hargs : KeysNodup args) (s : Sig) :
    (∀ build ∈ [gymBuild ninf pinf (.box ob) act args, vecBuild ninf pinf (.box ob) act args],
      (Fits s (fun k => (dictGet args k).or (documented ninf pinf (.box ob) act k)) →
        ∃ kw, build (.callable true s) = .ok (.called kw) ∧ ∀ k, dictGet kw k = (dictGet args k).or (documented ninf pinf (.box ob) act k)) ∧
      (¬ Fits s (fun k => (dictGet args k).or (documented ninf pinf (.box ob) act k)) → build (.callable true s) = .error .typeError) ∧
      (Fits s (dictGet args) → build (.callable false s) = .ok (.called args)) ∧
      (¬ Fits s (dictGet args) → build (.callable false s) = .error .typeError)) := by
  obtain ⟨c, c', h1, h2, h3⟩ := C137_constants ninf pinf ob hob hne act hact
  have hs := (gymConstants_ok ninf pinf ob hne act hact).2
  -- for any dictionary with the documented content
  have key : ∀ c : Dict String (CVal K), (∀ k, dictGet c k = documented ninf pinf (.box ob) act k) → ∀ build : Net → Except PyErr (Built (CVal K)),
      (∀ d, build (.callable d s) = (passInfoCall d s c args).bind fun kw => .ok (.called kw)) →
      (Fits s (fun k => (dictGet args k).or (documented ninf pinf (.box ob) act k)) →
        ∃ kw, build (.callable true s) = .ok (.called kw) ∧ ∀ k, dictGet kw k = (dictGet args k).or (documented ninf pinf (.box ob) act k)) ∧
      (¬ Fits s (fun k => (dictGet args k).or (documented ninf pinf (.box ob) act k)) → build (.callable true s) = .error .typeError) ∧
      (Fits s (dictGet args) → build (.callable false s) = .ok (.called args)) ∧
      (¬ Fits s (dictGet args) → build (.callable false s) = .error .typeError) := by
    intro c hc build hb
    have hu : dictGet (dictUpdate c args) = fun k => (dictGet args k).or (documented ninf pinf (.box ob) act k) := by
      funext k
      rw [dictGet_update, dictGet_reverse args hargs, hc]
    have hcall := callWith_spec s (dictUpdate c args)
    rw [hu] at hcall
    have hplain := callWith_spec s args
    refine ⟨fun hf => ⟨dictUpdate c args, ?_, fun k => by rw [hu]⟩, fun hf => ?_, fun hf => ?_, fun hf => ?_⟩
    · have hall : c.all (fun p => s.accepts p.1) = true := by
        rw [all_accepts]
        intro k hk
        apply hf.1 k
        rw [hc] at hk
        simp only [ne_eq, Option.or_eq_none_iff, not_and]
        exact fun _ => hk
      rw [hb]
      simp only [passInfoCall, if_true, hall, Bool.true_eq_false, if_false, hcall.1 hf, Except.bind]
    · rw [hb]
      simp only [passInfoCall, if_true]
      split
      · rfl
      · rw [hcall.2 hf]; rfl
    · rw [hb]; simp only [passInfoCall, Bool.false_eq_true, if_false, hplain.1 hf, Except.bind]
    · rw [hb]; simp only [passInfoCall, Bool.false_eq_true, if_false, hplain.2 hf, Except.bind]
  intro build hbuild
  simp only [List.mem_cons, List.not_mem_nil, or_false] at hbuild
  rcases hbuild with rfl | rfl
  · exact key c (fun k => (h3 k).1) _ (fun d => by simp only [gymBuild, h1, hs, Except.bind, neBuild])
  · exact key c' (fun k => (h3 k).2) _ (fun d => by simp only [vecBuild, h2, Except.bind])

/-- In a network string the documented constants are known; `network_args` adds constants and replaces the documented ones. For `GymNE` this fails for `obs_space` and `act_space`
(`C137_violated_string_args`). -/
theorem C137_string_partial (ninf pinf : K) (ob : BoxSpace K) (hob : ob.WF) (hne : ob.shape ≠ []) (act : Space K) (hact : Usual act) (args : Dict String (CVal K)) (hargs : KeysNodup args) :
    ∃ c c', gymBuild ninf pinf (.box ob) act args .str = .ok (.fromString c) ∧ vecBuild ninf pinf (.box ob) act args .str = .ok (.fromString c') ∧
      (∀ k, dictGet c' k = (dictGet args k).or (documentedStr (.box ob) act k)) ∧
      (∀ k, k ≠ "obs_space" → k ≠ "act_space" → dictGet c k = (dictGet args k).or (documentedStr (.box ob) act k)) ∧
      dictGet c "obs_space" = some (.shape ob.shape) ∧ dictGet c "act_space" = some (.shape (policyShape act)) := by
  obtain ⟨g1, g2⟩ := gymConstants_ok ninf pinf ob hne act hact
  obtain ⟨v1, v2⟩ := vecConstants_ok ninf pinf ob hob hne act hact
  obtain ⟨c, e1, e2⟩ : ∃ c, gymConstants ninf pinf (.box ob) act = .ok c ∧ c = [("obs_length", .int (ob.shape.headD 0)), ("act_length", .int ((policyShape act).headD 0)), ("obs_space", .space (.box ob)),
      ("act_space", .space (policyBox ninf pinf act)), ("obs_shape", .shape ob.shape), ("act_shape", .shape (policyShape act))] := ⟨_, g1, rfl⟩
  have hc : KeysNodup c := by subst e2; unfold KeysNodup; simp
  have hb : gymBuild ninf pinf (.box ob) act args .str =
      .ok (.fromString (dictUpdate (dictUpdate [] (dictUpdate (dictUpdate [] c) args)) [("obs_space", .shape ob.shape), ("act_space", .shape (policyShape act))])) := by
    simp only [gymBuild, e1, g2, Except.bind, neBuild]
  have hv : vecBuild ninf pinf (.box ob) act args .str = .ok (.fromString (dictUpdate [("obs_length", .int (ob.shape.headD 0)), ("act_length", .int ((policyShape act).headD 0)), ("obs_shape", .shape ob.shape),
      ("obs_space", .shape ob.shape), ("act_shape", .shape (policyShape act)), ("act_space", .shape (policyShape act))] args)) := by
    simp only [vecBuild, v2, Except.bind]
  have nil : KeysNodup ([] : Dict String (CVal K)) := by unfold KeysNodup; simp
  have hd : ∀ c : Dict String (CVal K), KeysNodup c → ∀ k, dictGet (dictUpdate [] c) k = dictGet c k := by
    intro c hc k
    rw [dictGet_update, dictGet_reverse c hc]
    simp [dictGet]
  refine ⟨_, _, hb, hv, ?_, ?_, ?_, ?_⟩
  · intro k
    rw [dictGet_update, dictGet_reverse args hargs]
    congr 1
    unfold documentedStr dictGet
    by_cases h1 : k = "obs_length"
    · subst h1; simp [VecEnvMake.Space.shape]
    by_cases h2 : k = "act_length"
    · subst h2; simp
    by_cases h3 : k = "obs_shape"
    · subst h3; simp [VecEnvMake.Space.shape]
    by_cases h4 : k = "act_shape"
    · subst h4; simp
    by_cases h5 : k = "obs_space"
    · subst h5; simp [VecEnvMake.Space.shape]
    by_cases h6 : k = "act_space"
    · subst h6; simp
    simp [h1, h2, h3, h4, h5, h6, Ne.symm h1, Ne.symm h2, Ne.symm h3, Ne.symm h4, Ne.symm h5, Ne.symm h6]
  · intro k h5 h6
    rw [dictGet_update, hd _ (StatusView.nodup_update args _ (StatusView.nodup_update c [] nil)), dictGet_update, dictGet_reverse args hargs, hd c hc]
    have h0 : dictGet ([("obs_space", CVal.shape ob.shape), ("act_space", CVal.shape (policyShape act))] : Dict String (CVal K)).reverse k = none := by
      simp [dictGet, Ne.symm h5, Ne.symm h6]
    rw [h0, Option.none_or]
    congr 1
    rw [e2]
    unfold documentedStr dictGet
    by_cases h1 : k = "obs_length"
    · subst h1; simp [VecEnvMake.Space.shape]
    by_cases h2 : k = "act_length"
    · subst h2; simp
    by_cases h3 : k = "obs_shape"
    · subst h3; simp [VecEnvMake.Space.shape]
    by_cases h4 : k = "act_shape"
    · subst h4; simp
    simp [h1, h2, h3, h4, h5, h6, Ne.symm h1, Ne.symm h2, Ne.symm h3, Ne.symm h4, Ne.symm h5, Ne.symm h6]
  · rw [dictGet_update]; simp [dictGet]
  · rw [dictGet_update]; simp [dictGet]

/-- C137 fails: `network_args` can replace the constant `obs_space` of a network string for `VecGymNE` but not for `GymNE`. -/
theorem C137_violated_string_args (ninf pinf : K) (ob : BoxSpace K) (hob : ob.WF) (hne : ob.shape ≠ []) (act : Space K) (hact : Usual act) (k : Nat) :
    ∃ c c', gymBuild ninf pinf (.box ob) act [("obs_space", .arg k)] .str = .ok (.fromString c) ∧ vecBuild ninf pinf (.box ob) act [("obs_space", .arg k)] .str = .ok (.fromString c') ∧
      dictGet c "obs_space" = some (.shape ob.shape) ∧ dictGet c' "obs_space" = some (.arg k) := by
  obtain ⟨c, c', h1, h2, h3, _, h5, _⟩ := C137_string_partial ninf pinf ob hob hne act hact [("obs_space", .arg k)] (by unfold KeysNodup; simp)
  exact ⟨c, c', h1, h2, h5, by rw [h3]; simp [dictGet]⟩

/-- A network given as a module is used as it is; `network_args` has no effect. A plain `NEProblem` (and `SupervisedNE`) has no constants: its callable networks and its strings get `network_args`. -/
theorem C137_module_and_plain (ninf pinf : K) (ob : BoxSpace K) (hne : ob.shape ≠ []) (act : Space K) (hact : Usual act) (args : Dict String (CVal K)) (hargs : KeysNodup args) :
    gymBuild ninf pinf (.box ob) act args .module = .ok .given ∧ vecBuild ninf pinf (.box ob) act args .module = .ok .given ∧
    (∃ c, neBuild [] [] args .str = .ok (.fromString c) ∧ ∀ k, dictGet c k = dictGet args k) ∧
    (∀ (d : Bool) (s : Sig), Fits s (dictGet args) → ∃ c, neBuild [] [] args (.callable d s) = .ok (.called c) ∧ ∀ k, dictGet c k = dictGet args k) := by
  obtain ⟨g1, g2⟩ := gymConstants_ok ninf pinf ob hne act hact
  have nil : KeysNodup ([] : Dict String (CVal K)) := by unfold KeysNodup; simp
  have hd : ∀ c : Dict String (CVal K), KeysNodup c → ∀ k, dictGet (dictUpdate [] c) k = dictGet c k := by
    intro c hc k
    rw [dictGet_update, dictGet_reverse c hc]
    simp [dictGet]
  refine ⟨by simp only [gymBuild, g1, g2, Except.bind, neBuild], rfl, ⟨_, rfl, fun k => ?_⟩, fun d s hf => ?_⟩
  · rw [dictGet_update]
    have h0 : dictGet ([] : Dict String (CVal K)).reverse k = none := rfl
    have h1 : (dictUpdate [] [] : Dict String (CVal K)) = [] := rfl
    rw [h0, Option.none_or, h1, hd _ (StatusView.nodup_update args _ nil), hd args hargs]
  · cases d with
    | false => exact ⟨args, by simp only [neBuild, passInfoCall, Bool.false_eq_true, if_false, (callWith_spec s args).1 hf, Except.bind], fun _ => rfl⟩
    | true =>
      have hg : dictGet (dictUpdate [] args) = dictGet args := by funext k; exact hd args hargs k
      refine ⟨dictUpdate [] args, ?_, fun k => hd args hargs k⟩
      have hf' : Fits s (dictGet (dictUpdate [] args)) := by rw [hg]; exact hf
      simp only [neBuild, passInfoCall, if_true, List.all_nil, Bool.true_eq_false, if_false, (callWith_spec s (dictUpdate [] args)).1 hf', Except.bind]

/-- A wrapped observation space `Box(2)` and two actions; a decorated network that takes the two lengths and any further argument. -/
example : gymBuild (K := Int) (-1000) 1000 (.box ⟨[2], [-4, -4], [4, 4]⟩) (.discrete 3 0) [("hidden", .arg 7)] (.callable true ⟨[("obs_length", false), ("act_length", false), ("hidden", true)], true⟩) =
    .ok (.called [("obs_length", .int 2), ("act_length", .int 3), ("obs_space", .space (.box ⟨[2], [-4, -4], [4, 4]⟩)),
      ("act_space", .space (.box ⟨[3], [-1000, -1000, -1000], [1000, 1000, 1000]⟩)), ("obs_shape", .shape [2]), ("act_shape", .shape [3]), ("hidden", .arg 7)]) := by rfl

example : Fits ⟨[("obs_length", false), ("hidden", false)], true⟩ (fun k => (dictGet [("hidden", CVal.arg 7)] k).or (documented (-1 : Int) 1 (.box ⟨[2], [-4, -4], [4, 4]⟩) (.discrete 3 0) k)) := by
  refine ⟨fun _ _ => Or.inl rfl, fun k hk => ?_⟩
  simp only [List.mem_cons, Prod.mk.injEq, and_true, List.not_mem_nil, or_false] at hk
  rcases hk with rfl | rfl <;> simp [dictGet, documented]

/-! ### The schedule of the alive bonus -/

/-- A pair `(t, b)` means a full bonus from `t` on, a triple `(t0, t1, b)` is taken as it is (times become integers), and None is no bonus; `GymNE` and `VecGymNE` agree. Sequences of other lengths are
refused by both; by `GymNE` with a ValueError. Missing: the ValueError of `VecGymNE` (`C137_violated_schedule`). -/
theorem C137_schedule_partial :
    (gymSchedule none = .ok none ∧ vecSchedule none = .ok none) ∧
    (∀ (t : Int) (b : ℚ), gymSchedule (some [(t : ℚ), b]) = .ok (some (t, t, b)) ∧ vecSchedule (some [(t : ℚ), b]) = .ok (some (t, t, b))) ∧
    (∀ (t0 t1 : Int) (b : ℚ), gymSchedule (some [(t0 : ℚ), (t1 : ℚ), b]) = .ok (some (t0, t1, b)) ∧ vecSchedule (some [(t0 : ℚ), (t1 : ℚ), b]) = .ok (some (t0, t1, b))) ∧
    (∀ l : List ℚ, l.length ≠ 2 → l.length ≠ 3 → gymSchedule (some l) = .error .valueError ∧ ∃ e, vecSchedule (some l) = .error e) := by
  have hi : ∀ t : Int, toInt (t : ℚ) = t := by intro t; simp [toInt]
  refine ⟨⟨rfl, rfl⟩, fun t b => ?_, fun t0 t1 b => ?_, fun l h2 h3 => ?_⟩
  · simp [gymSchedule, vecSchedule, hi]
  · simp [gymSchedule, vecSchedule, hi]
  · match l with
    | [] => exact ⟨rfl, _, rfl⟩
    | [_] => exact ⟨rfl, _, rfl⟩
    | [_, _] => exact absurd rfl h2
    | [_, _, _] => exact absurd rfl h3
    | _ :: _ :: _ :: _ :: _ => exact ⟨rfl, _, rfl⟩

/-- C137 fails: a schedule with a wrong number of elements makes `VecGymNE` raise an AttributeError: the text of its ValueError reads an attribute which is not set yet. -/
theorem C137_violated_schedule (l : List ℚ) (h2 : l.length ≠ 2) (h3 : l.length ≠ 3) : vecSchedule (some l) = .error .attributeError := by
  match l with
  | [] => rfl
  | [_] => rfl
  | [_, _] => exact absurd rfl h2
  | [_, _, _] => exact absurd rfl h3
  | _ :: _ :: _ :: _ :: _ => rfl

/-! ### Parallelization -/

/-- What the arguments ask for, as arguments of a `Problem`. -/
def asked (sense : String) (ib : Option (Bound K × Bound K)) (n : NetInfo) (d : DT) (p : Par) : Args K :=
  { sense := .single sense, initialBounds := ib, solutionLength := some n.length, dtype := some d, device := p.device, numActors := p.numActors, actorConfigHasGpus := p.hasGpus, gpusPerActor := p.gpus,
    numSubbatches := p.numSubbatches, subbatchSize := p.subbatchSize }

/-- `SupervisedNE` is a minimisation problem on the parameters of its network, with the dtype of these, and with all the settings asked for. A network without parameters is refused (StopIteration). -/
theorem C137_supervised (c : Cluster) (ib : Option (Bound K × Bound K)) (n : NetInfo) (p : Par) :
    (∀ d, n.dtype = some d → supervisedProblem c ib n p = construct c (asked "min" ib n d { p with device := some (p.device.getD "cpu") })) ∧
    (n.dtype = none → supervisedProblem c ib n p = .error .otherError) := by
  constructor
  · intro d hd
    simp only [supervisedProblem, netDtype, hd, Except.bind, asked]
  · intro hd
    simp only [supervisedProblem, netDtype, hd, Except.bind]

/-- `GymNE` is a maximisation problem on the cpu; actors and the size of the sub-batches are those asked for, if no number of sub-batches is asked for: this setting is lost (`C137_violated_num_subbatches`). -/
theorem C137_gym_partial (c : Cluster) (ib : Option (Bound K × Bound K)) (n : NetInfo) (d : DT) (hd : n.dtype = some d) (p : Par) (hdev : p.device = some "cpu") (hgpus : p.gpus = .none)
    (hp : p.numSubbatches = none) : gymProblem c ib n p = construct c (asked "max" ib n d p) := by
  simp only [gymProblem, netDtype, hd, Except.bind, asked, hdev, hgpus, hp]

/-- `VecGymNE` is a maximisation problem with all the settings asked for, if the number of actors is None or a number and the GPUs per actor are None or a number. Otherwise, see
`C137_violated_num_actors`. -/
theorem C137_vec_partial (c : Cluster) (ib : Bound K × Bound K) (n : NetInfo) (p : Par) (ha : ∀ s, p.numActors ≠ .str s) (hg : ∀ s, p.gpus ≠ .str s) :
    vecProblem c ib n p = construct c (asked "max" (some ib) n .float32 p) ∧
    (∃ dev aux, vecDevice p = .ok (dev, aux) ∧ (p.device ≠ none → p.device ≠ some "cpu" → dev = p.device ∧ aux = false) ∧
      (p.device = none ∨ p.device = some "cpu" → dev = none ∧
        (aux = true ↔ (∃ k, p.numActors = .num k ∧ 1 < k) ∧ ((∃ k, p.gpus = .int k ∧ 0 < k) ∨ ∃ x, p.gpus = .float x ∧ 0 < x)))) := by
  obtain ⟨b, hb, hb'⟩ : ∃ b, actorsUseGpu p.numActors p.gpus = .ok b ∧
      (b = true ↔ (∃ k, p.numActors = .num k ∧ 1 < k) ∧ ((∃ k, p.gpus = .int k ∧ 0 < k) ∨ ∃ x, p.gpus = .float x ∧ 0 < x)) := by
    cases hn : p.numActors with
    | none => exact ⟨false, rfl, by simp⟩
    | str s => exact absurd hn (ha s)
    | num k =>
      by_cases hk : k > 1
      · cases hq : p.gpus with
        | none => exact ⟨false, by simp [actorsUseGpu, hk], by simp⟩
        | str s => exact absurd hq (hg s)
        | int m => exact ⟨decide (m > 0), by simp [actorsUseGpu, hk], by simp; omega⟩
        | float x => exact ⟨decide (x > 0), by simp [actorsUseGpu, hk], by simp; intro _; omega⟩
      · refine ⟨false, by simp [actorsUseGpu, hk], ?_⟩
        simp only [Bool.false_eq_true, ActorsArg.num.injEq, false_iff, not_and]
        rintro ⟨k', rfl, hk'⟩
        exact absurd hk' hk
  constructor
  · have : ∃ r, vecDevice p = .ok r := by
      simp only [vecDevice, hb, Except.bind]
      split
      · exact ⟨_, rfl⟩
      · split <;> exact ⟨_, rfl⟩
    obtain ⟨r, hr⟩ := this
    simp only [vecProblem, hr, Except.bind, asked]
  · by_cases hdev : p.device = none ∨ p.device = some "cpu"
    · refine ⟨none, b, ?_, fun h1 h2 => ?_, fun _ => ⟨rfl, hb'⟩⟩
      · simp only [vecDevice, hb, Except.bind, hdev, not_true, if_false]
        cases b <;> simp
      · rcases hdev with h | h
        · exact absurd h h1
        · exact absurd h h2
    · exact ⟨p.device, false, by simp only [vecDevice, hb, Except.bind, hdev, not_false_iff, if_true], fun _ _ => ⟨rfl, rfl⟩, fun h => absurd h hdev⟩

/-- C137 fails: `VecGymNE` raises a TypeError for every string given as the number of actors, also for the documented "max", "num_cpus", "num_gpus" and "num_devices". -/
theorem C137_violated_num_actors (c : Cluster) (ib : Bound K × Bound K) (n : NetInfo) (p : Par) (s : String) (h : p.numActors = .str s) : vecProblem c ib n p = .error .typeError := by
  simp only [vecProblem, vecDevice, h, actorsUseGpu, Except.bind]

/-- C137 fails: the argument `num_subbatches` of `GymNE` is dropped. Whatever it says, the problem is the one without it; so a population of 10 is split into 2 pieces for 2 actors although 5 sub-batches
were asked for; and `num_subbatches` together with `subbatch_size`, which is documented as an error and is one for `Problem`, is accepted. -/
theorem C137_violated_num_subbatches :
    (∀ (c : Cluster) (ib : Option (Bound K × Bound K)) (n : NetInfo) (p : Par), gymProblem c ib n p = gymProblem c ib n { p with numSubbatches := none }) ∧
    (∃ cfg, gymProblem (K := Int) ⟨some 4, none⟩ (some (.scalar (-1), .scalar 1)) ⟨3, some .float32⟩ { numActors := .num 2, numSubbatches := some 5 } = .ok cfg ∧ cfg.numActors = 2 ∧
      cfg.numSubbatches = none ∧ cfg.subbatchSize = none) ∧
    (Workload.evaluationSizes 2 none none 10).toOption = some [5, 5] ∧ (Workload.evaluationSizes 2 (some 5) none 10).toOption = some [2, 2, 2, 2, 2] ∧
    (∃ cfg, gymProblem (K := Int) ⟨some 4, none⟩ (some (.scalar (-1), .scalar 1)) ⟨3, some .float32⟩ { numActors := .num 2, numSubbatches := some 5, subbatchSize := some 3 } = .ok cfg) ∧
    construct (K := Int) ⟨some 4, none⟩ (asked "max" (some (.scalar (-1), .scalar 1)) ⟨3, some .float32⟩ .float32 { numActors := .num 2, numSubbatches := some 5, subbatchSize := some 3 }) =
      .error .valueError := by
  refine ⟨fun c ib n p => rfl, ⟨_, rfl, rfl, rfl, rfl⟩, by decide +kernel, by decide +kernel, ⟨_, rfl⟩, rfl⟩

example : ∃ cfg, vecProblem (K := Int) ⟨some 4, some 2⟩ (.scalar (-1), .scalar 1) ⟨3, some .float32⟩ { numActors := .num 2, gpus := .int 1, numSubbatches := some 5 } = .ok cfg ∧ cfg.numSubbatches = some 5 :=
  ⟨_, rfl, rfl⟩

end EvoTorch.NEConfig
