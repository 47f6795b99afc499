import Verif.Model.ProblemConfig
import Verif.Props.RandomTensors
import Mathlib.Tactic.Linarith
import Mathlib.Tactic.Positivity
import Mathlib.Tactic.FieldSimp
import Mathlib.Tactic.NormNum
/-!
C92: a problem is accepted exactly when its configuration is as documented, and missing arguments are completed as documented. C93: actors and GPUs. C94: generation of solutions.
-/
namespace EvoTorch.ProblemConfig
open EvoTorch

/-! ### Specification of a valid configuration -/

/-- A bound for solutions of the given length: a scalar, or a vector of that length. -/
def BoundFits {K : Type} (len : Int) (b : Bound K) : Prop := (∃ x, b = .scalar x) ∨ ∃ xs, b = .vec xs ∧ (xs.length : Int) = len

/-- Valid senses: "min" or "max", or a non-empty sequence of these. -/
def SenseArg.Valid : SenseArg → Prop
  | .single s => s = "min" ∨ s = "max"
  | .many ss => ss ≠ [] ∧ ∀ s ∈ ss, s = "min" ∨ s = "max"

/-- The senses as a list. -/
def SenseArg.toList : SenseArg → List String
  | .single s => [s]
  | .many ss => ss

/-- The documented requirements on the arguments, except those on the actors. -/
structure WellFormed {K : Type} (a : Args K) : Prop where
  evals_numeric : a.evalDtype ≠ some .object
  object_free : a.dtype = some .object → a.bounds = none ∧ a.initialBounds = none ∧ a.solutionLength = none ∧ (a.device = none ∨ a.device = some "cpu")
  numeric : a.dtype ≠ some .object → ∃ len, a.solutionLength = some len ∧
    (∀ lb ub, a.bounds = some (lb, ub) → BoundFits len lb ∧ BoundFits len ub) ∧ (∀ lb ub, a.initialBounds = some (lb, ub) → BoundFits len lb ∧ BoundFits len ub)
  senses : a.sense.Valid
  vectorized : a.vectorized ≠ none → a.func = .plain
  subbatches : a.numSubbatches = none ∨ a.subbatchSize = none

/-! ### The pieces -/

theorem checkBound_ok {K : Type} (len : Int) (b : Bound K) : checkBound len b = .ok () ↔ BoundFits len b := by
  cases b with
  | scalar x => simp [checkBound, BoundFits]
  | vec xs =>
    by_cases h : (xs.length : Int) = len <;> simp [checkBound, BoundFits, h]
  | higher => simp [checkBound, BoundFits]

theorem processBounds_ok {K : Type} (len : Int) (b : Bound K × Bound K) :
    processBounds len b = .ok b ↔ BoundFits len b.1 ∧ BoundFits len b.2 := by
  rw [← checkBound_ok, ← checkBound_ok]
  unfold processBounds
  cases h1 : checkBound len b.1 with
  | error e => simp [bind, Except.bind]
  | ok u => cases h2 : checkBound len b.2 <;> simp [bind, Except.bind, pure, Except.pure]

theorem processBounds_eq {K : Type} (len : Int) (b r : Bound K × Bound K) (h : processBounds len b = .ok r) : r = b := by
  unfold processBounds at h
  cases h1 : checkBound len b.1 with
  | error e => simp [bind, Except.bind, h1] at h
  | ok u =>
    cases h2 : checkBound len b.2 with
    | error e => simp [bind, Except.bind, h1, h2] at h
    | ok u => simp [bind, Except.bind, h1, h2, pure, Except.pure] at h; exact h.symm

theorem processBounds_error {K : Type} (len : Int) (b : Bound K × Bound K) (e : PyErr) (h : processBounds len b = .error e) : e = .valueError := by
  have key : ∀ b' : Bound K, ∀ e', checkBound len b' = .error e' → e' = .valueError := by
    intro b' e' h'
    cases b' with
    | scalar x => simp [checkBound] at h'
    | vec xs => by_cases hl : (xs.length : Int) = len <;> simp [checkBound, hl] at h'; exact h'.symm
    | higher => simp [checkBound] at h'; exact h'.symm
  unfold processBounds at h
  cases h1 : checkBound len b.1 with
  | error e' => simp [bind, Except.bind, h1] at h; subst h; exact key _ _ h1
  | ok u =>
    cases h2 : checkBound len b.2 with
    | error e' => simp [bind, Except.bind, h1, h2] at h; subst h; exact key _ _ h2
    | ok u => simp [bind, Except.bind, h1, h2, pure, Except.pure] at h

/-- What `lengthAndBounds` accepts and returns. -/
theorem lengthAndBounds_ok {K : Type} (dtype : DT) (device : String) (sl : Option Int) (ib b : Option (Bound K × Bound K)) (r) :
    lengthAndBounds dtype device sl ib b = .ok r ↔
      (dtype = .object ∧ b = none ∧ ib = none ∧ sl = none ∧ device = "cpu" ∧ r = (none, none, none)) ∨
      (dtype ≠ .object ∧ ∃ len, sl = some len ∧ (∀ lb ub, b = some (lb, ub) → BoundFits len lb ∧ BoundFits len ub) ∧
        (∀ lb ub, ib = some (lb, ub) → BoundFits len lb ∧ BoundFits len ub) ∧ r = (some len, ib <|> b, b)) := by
  unfold lengthAndBounds
  by_cases hd : dtype = .object
  · simp only [hd, if_true]
    cases b <;> cases ib <;> cases sl <;> simp
    by_cases hc : device = "cpu" <;> simp [hc, eq_comm]
  · simp only [hd, if_false, false_and, false_or, ne_eq, not_false_eq_true, true_and]
    cases sl with
    | none => simp
    | some len =>
      cases b with
      | none =>
        cases ib with
        | none => simp [eq_comm]
        | some i =>
          cases hp : processBounds len i with
          | error e =>
            simp [bind, Except.bind, hp]
            intro hf
            have := (processBounds_ok len i).2 (hf _ _ rfl)
            rw [hp] at this; cases this
          | ok r' =>
            have := processBounds_eq _ _ _ hp; subst this
            have hf := (processBounds_ok len r').1 hp
            simp [bind, Except.bind, hp, pure, Except.pure]
            constructor
            · intro h; exact ⟨fun lb ub h' => by subst h'; exact hf, h.symm⟩
            · intro h; exact h.2.symm
      | some b =>
        have step : ∀ i : Bound K × Bound K, (do
              let i ← processBounds len i
              let b ← processBounds len b
              return (some len, some i, some b) : Except PyErr (Option Int × Option (Bound K × Bound K) × Option (Bound K × Bound K))) = .ok r ↔
            (BoundFits len i.1 ∧ BoundFits len i.2) ∧ (BoundFits len b.1 ∧ BoundFits len b.2) ∧ r = (some len, some i, some b) := by
          intro i
          rw [← processBounds_ok, ← processBounds_ok]
          cases hp : processBounds len i with
          | error e => simp [bind, Except.bind]
          | ok r' =>
            have := processBounds_eq _ _ _ hp; subst this
            cases hq : processBounds len b with
            | error e => simp [bind, Except.bind]
            | ok r'' =>
              have := processBounds_eq _ _ _ hq; subst this
              simp [bind, Except.bind, pure, Except.pure, eq_comm]
        cases ib with
        | none =>
          refine (step b).trans ?_
          constructor
          · rintro ⟨h, _, hr⟩
            exact ⟨len, rfl, fun lb ub h' => by cases h'; exact h, fun _ _ h' => (by cases h'), hr⟩
          · rintro ⟨_, hl, h, _, hr⟩
            cases hl
            exact ⟨h _ _ rfl, h _ _ rfl, hr⟩
        | some i =>
          refine (step i).trans ?_
          constructor
          · rintro ⟨h, h2, hr⟩
            exact ⟨len, rfl, fun lb ub h' => by cases h'; exact h2, fun _ _ h' => (by cases h'; exact h), hr⟩
          · rintro ⟨_, hl, h, h2, hr⟩
            cases hl
            exact ⟨h2 _ _ rfl, h _ _ rfl, hr⟩

theorem sensesOf_ok (a : SenseArg) (h : ∀ s, a = .single s → s = "min" ∨ s = "max") (r : List String) :
    sensesOf a = .ok r ↔ a.Valid ∧ r = a.toList := by
  cases a with
  | single s => simp [sensesOf, SenseArg.Valid, SenseArg.toList, h s rfl, eq_comm]
  | many ss =>
    by_cases hv : ∀ s ∈ ss, s = "min" ∨ s = "max"
    · have : ss.all (fun s => s = "min" || s = "max") = true := by simpa using hv
      cases ss with
      | nil => simp [sensesOf, SenseArg.Valid]
      | cons s rest =>
        simp only [sensesOf, this, if_true]
        constructor
        · intro h'; cases h'; exact ⟨⟨by simp, hv⟩, rfl⟩
        · rintro ⟨_, rfl⟩; rfl
    · have : ss.all (fun s => s = "min" || s = "max") = false := by
        rw [Bool.eq_false_iff]; intro hc; exact hv (by simpa using hc)
      simp only [sensesOf, this]
      constructor
      · intro h'; cases h'
      · rintro ⟨⟨_, h'⟩, _⟩; exact absurd h' hv

theorem vectorizedOf_ok (f : Func) (v : Option Bool) (r) :
    vectorizedOf f v = .ok r ↔ (v ≠ none → f = .plain) ∧
      r = (match f with | .absent => none | .decorated => some true | .plain => some (v.getD false)) := by
  cases f <;> cases v <;> simp [vectorizedOf, eq_comm]

theorem evalDtypeOf_ok (d : DT) (e : Option DT) (r) :
    evalDtypeOf d e = .ok r ↔ e ≠ some .object ∧ r = e.getD (if d = .float16 ∨ d = .bfloat16 ∨ d = .float64 then d else .float32) := by
  cases e with
  | none => simp [evalDtypeOf, eq_comm]
  | some e => cases e <;> simp [evalDtypeOf, eq_comm]

/-- The constructor, seen as the conjunction of its steps. -/
theorem construct_ok {K : Type} (c : Cluster) (a : Args K) (cfg : Config K) :
    construct c a = .ok cfg ↔ ∃ e l s v n, evalDtypeOf (dtypeOf a.dtype) a.evalDtype = .ok e ∧
      lengthAndBounds (dtypeOf a.dtype) (a.device.getD "cpu") a.solutionLength a.initialBounds a.bounds = .ok l ∧ sensesOf a.sense = .ok s ∧
      vectorizedOf a.func a.vectorized = .ok v ∧ ¬ (a.numSubbatches.isSome ∧ a.subbatchSize.isSome) ∧
      actorsOf (a.device.getD "cpu") a.actorConfigHasGpus c a.numActors a.gpusPerActor = .ok n ∧
      cfg = { dtype := dtypeOf a.dtype, evalDtype := e, device := a.device.getD "cpu", solutionLength := l.1, bounds := l.2.2, initialBounds := l.2.1, senses := s, vectorized := v, evalDataLength := a.evalDataLength.getD 0, numSubbatches := a.numSubbatches, subbatchSize := a.subbatchSize, numActors := n.1, gpusPerActor := n.2 } := by
  unfold construct
  dsimp only
  cases h1 : evalDtypeOf (dtypeOf a.dtype) a.evalDtype with
  | error e => simp [bind, Except.bind]
  | ok e =>
    cases h2 : lengthAndBounds (dtypeOf a.dtype) (a.device.getD "cpu") a.solutionLength a.initialBounds a.bounds with
    | error e => simp [bind, Except.bind, h2]
    | ok l =>
      cases h3 : sensesOf a.sense with
      | error e => simp [bind, Except.bind, h2]
      | ok s =>
        cases h4 : vectorizedOf a.func a.vectorized with
        | error e => simp [bind, Except.bind, h2]
        | ok v =>
          by_cases h5 : a.numSubbatches.isSome ∧ a.subbatchSize.isSome
          · simp [bind, Except.bind, h2, h5]
          · cases h6 : actorsOf (a.device.getD "cpu") a.actorConfigHasGpus c a.numActors a.gpusPerActor with
            | error e => simp [bind, Except.bind, h2, h5, h6]
            | ok n =>
              simp only [bind, Except.bind, h5, if_false, pure, Except.pure]
              constructor
              · intro h'; cases h'; exact ⟨e, l, s, v, n, rfl, rfl, rfl, rfl, fun hf => hf, rfl, rfl⟩
              · rintro ⟨_, _, _, _, _, h1', h2', h3', h4', _, h6', rfl⟩
                cases h1'; cases h2'; cases h3'; cases h4'; cases h6'; rfl

theorem dtypeOf_object (d : Option DT) : dtypeOf d = .object ↔ d = some .object := by
  cases d <;> simp [dtypeOf]

/-! ### C92 -/

/-- **C92 (acceptance, partial).** If a single objective sense is "min" or "max" (the code does not check this), then a problem can be constructed exactly when its
arguments are as documented and its actors can be configured (C93). Missing: refusal of a single sense which is neither (see `C92_violated_single_sense`). -/
theorem C92_accepted_iff_partial {K : Type} (c : Cluster) (a : Args K) (h : ∀ s, a.sense = .single s → s = "min" ∨ s = "max") :
    (∃ cfg, construct c a = .ok cfg) ↔
      WellFormed a ∧ ∃ n, actorsOf (a.device.getD "cpu") a.actorConfigHasGpus c a.numActors a.gpusPerActor = .ok n := by
  simp only [construct_ok, evalDtypeOf_ok, lengthAndBounds_ok, sensesOf_ok _ h, vectorizedOf_ok]
  constructor
  · rintro ⟨cfg, e, l, s, v, n, ⟨he, _⟩, hl, ⟨hs, _⟩, ⟨hv, _⟩, hb, hn, _⟩
    refine ⟨⟨he, fun hd => ?_, fun hd => ?_, hs, hv, ?_⟩, n, hn⟩
    · rcases hl with ⟨_, h1, h2, h3, h4, _⟩ | ⟨hd', _⟩
      · refine ⟨h1, h2, h3, ?_⟩
        cases hdev : a.device with
        | none => exact Or.inl rfl
        | some d => right; rw [hdev] at h4; simpa using h4
      · exact absurd ((dtypeOf_object _).2 hd) hd'
    · rcases hl with ⟨hd', _⟩ | ⟨_, len, h1, h2, h3, _⟩
      · exact absurd ((dtypeOf_object _).1 hd') hd
      · exact ⟨len, h1, h2, h3⟩
    · cases h1 : a.numSubbatches <;> cases h2 : a.subbatchSize <;> simp [h1, h2] at hb ⊢
  · rintro ⟨⟨he, ho, hnum, hs, hv, hb⟩, n, hn⟩
    have hl : ∃ l : Option Int × Option (Bound K × Bound K) × Option (Bound K × Bound K), lengthAndBounds (dtypeOf a.dtype) (a.device.getD "cpu") a.solutionLength a.initialBounds a.bounds = .ok l := by
      by_cases hd : a.dtype = some .object
      · obtain ⟨h1, h2, h3, h4⟩ := ho hd
        exact ⟨(none, none, none), (lengthAndBounds_ok _ _ _ _ _ _).2 (Or.inl ⟨(dtypeOf_object _).2 hd, h1, h2, h3, by rcases h4 with h4 | h4 <;> simp [h4], rfl⟩)⟩
      · obtain ⟨len, h1, h2, h3⟩ := hnum hd
        exact ⟨_, (lengthAndBounds_ok _ _ _ _ _ _).2 (Or.inr ⟨fun h' => hd ((dtypeOf_object _).1 h'), len, h1, h2, h3, rfl⟩)⟩
    obtain ⟨l, hl⟩ := hl
    rw [lengthAndBounds_ok] at hl
    refine ⟨_, _, l, _, _, n, ⟨he, rfl⟩, hl, ⟨hs, rfl⟩, ⟨hv, rfl⟩, ?_, hn, rfl⟩
    · rcases hb with hb | hb <;> simp [hb]

/-- **C92 (completion).** The attributes of an accepted problem are the given arguments; the dtype defaults to float32, the dtype of evaluations to the float16, bfloat16
or float64 of the solutions and otherwise to float32, the device to the cpu, the initial bounds to the bounds, and the function is vectorised exactly when decorated or
declared so. -/
theorem C92_completed {K : Type} (c : Cluster) (a : Args K) (cfg : Config K) (h : construct c a = .ok cfg) :
    cfg.dtype = a.dtype.getD .float32 ∧
    (∀ e, a.evalDtype = some e → cfg.evalDtype = e) ∧
    (a.evalDtype = none → (cfg.dtype = .float16 → cfg.evalDtype = .float16) ∧ (cfg.dtype = .bfloat16 → cfg.evalDtype = .bfloat16) ∧
      (cfg.dtype = .float64 → cfg.evalDtype = .float64) ∧ (cfg.dtype ≠ .float16 → cfg.dtype ≠ .bfloat16 → cfg.dtype ≠ .float64 → cfg.evalDtype = .float32)) ∧
    cfg.device = a.device.getD "cpu" ∧ cfg.solutionLength = a.solutionLength ∧ cfg.bounds = a.bounds ∧
    (∀ b, a.initialBounds = some b → cfg.initialBounds = some b) ∧ (a.initialBounds = none → cfg.initialBounds = a.bounds) ∧
    (∀ s, a.sense = .single s → cfg.senses = [s]) ∧ (∀ ss, a.sense = .many ss → cfg.senses = ss) ∧
    (cfg.vectorized = some true ↔ a.func = .decorated ∨ a.func = .plain ∧ a.vectorized = some true) ∧
    cfg.evalDataLength = a.evalDataLength.getD 0 ∧ cfg.numSubbatches = a.numSubbatches ∧ cfg.subbatchSize = a.subbatchSize := by
  obtain ⟨e, l, s, v, n, he, hl, hs, hv, _, _, rfl⟩ := (construct_ok c a cfg).1 h
  rw [evalDtypeOf_ok] at he
  rw [vectorizedOf_ok] at hv
  rw [lengthAndBounds_ok] at hl
  have hl' : l.1 = a.solutionLength ∧ l.2.1 = (a.initialBounds <|> a.bounds) ∧ l.2.2 = a.bounds := by
    rcases hl with ⟨_, h1, h2, h3, _, rfl⟩ | ⟨_, len, h1, _, _, rfl⟩
    · simp [h1, h2, h3]
    · simp [h1]
  refine ⟨rfl, fun e' h' => ?_, fun h' => ?_, rfl, hl'.1, hl'.2.2, fun b hb => ?_, fun hb => ?_, fun s' h' => ?_, fun s' h' => ?_, ?_, rfl, rfl, rfl⟩
  · rw [he.2, h']; rfl
  · rw [h'] at he
    simp only [Option.getD_none] at he
    refine ⟨fun hd => ?_, fun hd => ?_, fun hd => ?_, fun h1 h2 h3 => ?_⟩
    · rw [he.2]; dsimp only at hd; simp [hd]
    · rw [he.2]; dsimp only at hd; simp [hd]
    · rw [he.2]; dsimp only at hd; simp [hd]
    · rw [he.2]; exact if_neg (by rintro (h | h | h); exacts [h1 h, h2 h, h3 h])
  · show l.2.1 = _
    rw [hl'.2.1, hb]; rfl
  · show l.2.1 = _
    rw [hl'.2.1, hb]; rfl
  · rw [h'] at hs; cases hs; rfl
  · rw [h'] at hs
    simp only [sensesOf] at hs
    split at hs
    · split at hs
      · cases hs
      · cases hs; rfl
    · cases hs
  · rw [hv.2]
    cases hf : a.func <;> cases hx : a.vectorized <;> simp

/-- **C92 (a sequence of senses).** A sequence containing anything but "min" and "max", and an empty one, are refused. -/
theorem C92_sequence_validated {K : Type} (c : Cluster) (a : Args K) (ss : List String) (h : a.sense = .many ss)
    (hbad : ss = [] ∨ ∃ s ∈ ss, s ≠ "min" ∧ s ≠ "max") : ∀ cfg, construct c a ≠ .ok cfg := by
  intro cfg hc
  have := ((C92_accepted_iff_partial c a (by rw [h]; intro s hs; cases hs)).1 ⟨cfg, hc⟩).1.senses
  rw [h] at this
  rcases hbad with hb | ⟨s, hs, h1, h2⟩
  · exact this.1 hb
  · rcases this.2 s hs with h' | h'
    · exact h1 h'
    · exact h2 h'

/-- A cluster with four CPUs and two GPUs. -/
def exampleCluster : Cluster := ⟨some 4, some 2⟩

/-- A typical problem: three variables in [-1, 1], to be minimised. -/
def exampleArgs : Args ℚ := { sense := .single "min", func := .plain, bounds := some (.scalar (-1), .vec [1, 1, 1]), solutionLength := some 3, dtype := some .float64, vectorized := some true }

example : construct exampleCluster exampleArgs = .ok { dtype := .float64, evalDtype := .float64, device := "cpu", solutionLength := some 3, bounds := some (.scalar (-1), .vec [1, 1, 1]), initialBounds := some (.scalar (-1), .vec [1, 1, 1]), senses := ["min"], vectorized := some true, evalDataLength := 0, numSubbatches := none, subbatchSize := none, numActors := 0, gpusPerActor := .none } := by decide +kernel

example : ∀ cfg, construct exampleCluster { exampleArgs with bounds := some (.scalar 0, .vec [1, 1]) } ≠ .ok cfg := by
  have : construct exampleCluster { exampleArgs with bounds := some (.scalar 0, .vec [1, 1]) } = .error .valueError := by decide +kernel
  intro cfg; rw [this]; intro h; cases h

example : ∀ cfg, construct exampleCluster { exampleArgs with sense := .many ["min", "maximise"] } ≠ .ok cfg :=
  C92_sequence_validated _ _ ["min", "maximise"] rfl (Or.inr ⟨"maximise", by simp, by decide, by decide⟩)

/-- **C92 violated.** A single sense which is neither "min" nor "max" is accepted by the constructor. Only the first creation of a batch fails. -/
theorem C92_violated_single_sense :
    (∃ cfg, construct exampleCluster { exampleArgs with sense := .single "minimise" } = .ok cfg ∧
      descending cfg.senses = .error .valueError) ∧
    ∀ cfg, construct exampleCluster { exampleArgs with sense := .many ["minimise"] } ≠ .ok cfg := by
  refine ⟨?_, C92_sequence_validated _ _ ["minimise"] rfl (Or.inr ⟨"minimise", by simp, by decide, by decide⟩)⟩
  refine ⟨{ dtype := .float64, evalDtype := .float64, device := "cpu", solutionLength := some 3, bounds := some (.scalar (-1), .vec [1, 1, 1]), initialBounds := some (.scalar (-1), .vec [1, 1, 1]), senses := ["minimise"], vectorized := some true, evalDataLength := 0, numSubbatches := none, subbatchSize := none, numActors := 0, gpusPerActor := .none }, by decide +kernel, by decide +kernel⟩

/-- **C92 violated.** `eval_dtype` "must always refer to a float data type", yet an integer dtype is accepted. -/
theorem C92_violated_eval_dtype : ∃ cfg, construct exampleCluster { exampleArgs with evalDtype := some (.other "int64") } = .ok cfg ∧ cfg.evalDtype = .other "int64" :=
  ⟨{ dtype := .float64, evalDtype := .other "int64", device := "cpu", solutionLength := some 3, bounds := some (.scalar (-1), .vec [1, 1, 1]), initialBounds := some (.scalar (-1), .vec [1, 1, 1]), senses := ["min"], vectorized := some true, evalDataLength := 0, numSubbatches := none, subbatchSize := none, numActors := 0, gpusPerActor := .none }, by decide +kernel, rfl⟩

/-! ### C93 -/

theorem actorsOf_ok (device : String) (hasGpus : Bool) (c : Cluster) (n : ActorsArg) (g : Gpus) (k : Int) (p : Gpus) :
    actorsOf device hasGpus c n g = .ok (k, p) ↔
      ∃ raw n' g', rawActors device hasGpus c n g = .ok raw ∧ settleActors device raw = .ok (n', g') ∧ gpusOf hasGpus c n' g' = .ok p ∧ k = n' := by
  unfold actorsOf
  cases h1 : rawActors device hasGpus c n g with
  | error e => simp [bind, Except.bind]
  | ok raw =>
    cases h2 : settleActors device raw with
    | error e => simp [bind, Except.bind, h2]
    | ok r =>
      obtain ⟨n', g'⟩ := r
      cases h3 : gpusOf hasGpus c n' g' with
      | error e =>
        simp only [bind, Except.bind, h2, h3]
        constructor
        · intro h; cases h
        · rintro ⟨_, _, _, h, h', h'', _⟩
          cases h; rw [h2] at h'; cases h'; rw [h3] at h''; cases h''
      | ok p' =>
        simp only [bind, Except.bind, h2, h3, pure, Except.pure]
        constructor
        · intro h; cases h; exact ⟨raw, _, _, rfl, h2, h3, rfl⟩
        · rintro ⟨_, _, _, h, h', h'', rfl⟩
          cases h; rw [h2] at h'; cases h'; rw [h3] at h''; cases h''; rfl

/-- **C93 (never one actor; several only with the cpu).** Whatever is asked for, the number of actors is never exactly one, and if there are several of them then the
main device is the cpu. -/
theorem C93_settled (device : String) (hasGpus : Bool) (c : Cluster) (n : ActorsArg) (g : Gpus) (k : Int) (p : Gpus)
    (h : actorsOf device hasGpus c n g = .ok (k, p)) : k ≠ 1 ∧ (2 ≤ k → device = "cpu") := by
  obtain ⟨raw, n', g', _, h2, _, rfl⟩ := (actorsOf_ok _ _ _ _ _ _ _).1 h
  obtain ⟨o, g0⟩ := raw
  cases o with
  | none => simp [settleActors] at h2
  | some m =>
    by_cases hm : m = 1
    · simp [settleActors, hm] at h2
      rw [← h2.1]; exact ⟨by decide, fun h => by omega⟩
    · simp only [settleActors, if_neg hm] at h2
      split at h2
      · cases h2
      · rename_i hc
        simp only [Except.ok.injEq, Prod.mk.injEq] at h2
        rw [← h2.1]
        exact ⟨hm, fun h2 => by_contra fun hd => hc ⟨h2, hd⟩⟩

/-- The number of actors for a requested number: one actor is replaced by none. -/
def settled (n : Int) : Int := if n = 1 then 0 else n

theorem settle_cpu (n : Int) (g : Gpus) : settleActors "cpu" (some n, g) = .ok (settled n, if n = 1 then .none else g) := by
  by_cases h : n = 1 <;> simp [settleActors, settled, h]

theorem gpusOf_simple (c : Cluster) (n : Int) (x : ℚ) (k : Int) :
    gpusOf false c n .none = .ok .none ∧ gpusOf false c n (.float x) = .ok (.float x) ∧ gpusOf false c n (.int k) = .ok (.int k) := by
  simp [gpusOf]

/-- **C93 (numbers).** With the cpu as the main device, a given number of actors is used as given (one becomes none); without the argument there are no actors; "max" and
"num_cpus" mean the number of available CPUs, rounded up. -/
theorem C93_counts (c : Cluster) (n : Int) (cpus : ℚ) (hc : c.cpu = some cpus) :
    actorsOf "cpu" false c .none .none = .ok (0, .none) ∧ actorsOf "cpu" false c (.num n) .none = .ok (settled n, .none) ∧
    actorsOf "cpu" false c (.str "max") .none = .ok (settled ⌈cpus⌉, .none) ∧ actorsOf "cpu" false c (.str "num_cpus") .none = .ok (settled ⌈cpus⌉, .none) := by
  have key : ∀ m : Int, settleActors "cpu" (some m, Gpus.none) = .ok (settled m, .none) := by
    intro m; rw [settle_cpu]; simp
  have h0 := key 0
  refine ⟨?_, ?_, ?_, ?_⟩
  · simp [actorsOf, rawActors, bind, Except.bind, key, gpusOf, pure, Except.pure, settled]
  · simp [actorsOf, rawActors, bind, Except.bind, key, gpusOf, pure, Except.pure]
  · simp [actorsOf, rawActors, ceilOf, hc, bind, Except.bind, key, gpusOf, pure, Except.pure]
  · simp [actorsOf, rawActors, ceilOf, hc, bind, Except.bind, key, gpusOf, pure, Except.pure]

/-- **C93 ("num_gpus").** With GPUs available, there are as many actors as GPUs (rounded up, one becoming none); the shares of the actors sum up to the available GPUs, none
gets more than one GPU, and each gets exactly one if their number is an integer. -/
theorem C93_num_gpus (c : Cluster) (gpus : ℚ) (hg : c.gpu = some gpus) (hpos : 1 / 10000 ≤ gpus) :
    ∃ p, actorsOf "cpu" false c (.str "num_gpus") .none = .ok (settled ⌈gpus⌉, p) ∧
      (2 ≤ ⌈gpus⌉ → ∃ x : ℚ, p = .float x ∧ (⌈gpus⌉ : ℚ) * x = gpus ∧ 0 < x ∧ x ≤ 1 ∧ ((⌈gpus⌉ : ℚ) = gpus → x = 1)) := by
  have hraw : rawActors "cpu" false c (.str "num_gpus") .none = .ok (some ⌈gpus⌉, .float (gpus / ⌈gpus⌉)) := by
    simp only [rawActors, hg]
    rw [if_neg (by decide), if_pos trivial, if_neg (not_lt.2 hpos)]
    rfl
  have hp : (0 : ℚ) < gpus := lt_of_lt_of_le (by norm_num) hpos
  by_cases h1 : ⌈gpus⌉ = 1
  · refine ⟨.none, ?_, fun h => by omega⟩
    simp [actorsOf, hraw, bind, Except.bind, settle_cpu, h1, gpusOf, pure, Except.pure]
  · refine ⟨.float (gpus / ⌈gpus⌉), ?_, fun h => ⟨gpus / ⌈gpus⌉, rfl, ?_, ?_, ?_, ?_⟩⟩
    · simp [actorsOf, hraw, bind, Except.bind, settle_cpu, h1, gpusOf, pure, Except.pure]
    all_goals
      have hc : (0 : ℚ) < (⌈gpus⌉ : ℚ) := by exact_mod_cast (by omega : (0 : Int) < ⌈gpus⌉)
    · field_simp
    · positivity
    · rw [div_le_one hc]; exact Int.le_ceil gpus
    · intro he; rw [he]; exact div_self hp.ne'

/-- **C93 ("num_devices").** With the cpu as the main device: without GPUs there are as many actors as CPUs and no GPUs are assigned; with GPUs there are as many actors as
the minimum of CPUs and GPUs (rounded up), each gets an entire GPU if there are enough and otherwise an equal share, so that never more than the available GPUs are used. -/
theorem C93_num_devices (c : Cluster) (cpus : ℚ) (hc : c.cpu = some cpus) :
    ((∀ gpus, c.gpu = some gpus → gpus < 1 / 10000) → actorsOf "cpu" false c (.str "num_devices") .none = .ok (settled ⌈cpus⌉, .none)) ∧
    (∀ gpus, c.gpu = some gpus → 1 / 10000 ≤ gpus → ∃ p, actorsOf "cpu" false c (.str "num_devices") .none = .ok (settled ⌈min cpus gpus⌉, p) ∧
      (2 ≤ ⌈min cpus gpus⌉ → (p = .int 1 ∧ (⌈min cpus gpus⌉ : ℚ) ≤ gpus) ∨
        ∃ x : ℚ, p = .float x ∧ (⌈min cpus gpus⌉ : ℚ) * x = gpus ∧ 0 < x ∧ x < 1 ∧ gpus < ⌈min cpus gpus⌉)) := by
  constructor
  · intro hno
    have hraw : rawActors "cpu" false c (.str "num_devices") .none = .ok (some ⌈cpus⌉, .none) := by
      simp only [rawActors, hc, ceilOf]
      rw [if_neg (by decide), if_neg (by decide), if_pos trivial]
      cases hg : c.gpu with
      | none => rfl
      | some gpus => simp [hno gpus hg, bind, Except.bind, pure, Except.pure]; intro h; have := hno gpus hg; norm_num at this; linarith
    simp [actorsOf, hraw, bind, Except.bind, settle_cpu, gpusOf, pure, Except.pure]
  · intro gpus hg hpos
    set n := ⌈min cpus gpus⌉ with hn
    have hp : (0 : ℚ) < gpus := lt_of_lt_of_le (by norm_num) hpos
    have hraw : rawActors "cpu" false c (.str "num_devices") .none = .ok (some n, if (n : ℚ) ≤ gpus then .int 1 else .float (gpus / n)) := by
      simp only [rawActors, hc, hg]
      rw [if_neg (by decide), if_neg (by decide), if_pos trivial, if_neg (by decide), if_neg (by decide), if_neg (by decide), if_neg (not_lt.2 hpos)]
    by_cases h1 : n = 1
    · refine ⟨.none, ?_, fun h => by omega⟩
      simp only [actorsOf, hraw, bind, Except.bind, settle_cpu, if_pos h1, (gpusOf_simple c _ 0 0).1]; rfl
    · by_cases hle : (n : ℚ) ≤ gpus
      · refine ⟨.int 1, ?_, fun h => Or.inl ⟨rfl, hle⟩⟩
        simp only [actorsOf, hraw, bind, Except.bind, settle_cpu, if_neg h1, if_pos hle, (gpusOf_simple c _ 0 1).2.2]; rfl
      · refine ⟨.float (gpus / n), ?_, fun h => Or.inr ⟨gpus / n, rfl, ?_, ?_, ?_, not_le.1 hle⟩⟩
        · simp only [actorsOf, hraw, bind, Except.bind, settle_cpu, if_neg h1, if_neg hle, (gpusOf_simple c _ (gpus / n) 1).2.1]; rfl
        all_goals
          have hc : (0 : ℚ) < (n : ℚ) := by exact_mod_cast (by omega : (0 : Int) < n)
        · field_simp
        · positivity
        · rw [div_lt_one hc]; exact not_le.1 hle

/-- **C93 (conflicts).** With "num_gpus" or "num_devices", also stating the GPUs per actor (by argument or in `actor_config`) is refused; so are stating them both ways,
unknown strings, and "num_gpus" without GPUs. -/
theorem C93_conflicts (device : String) (c : Cluster) :
    (∀ s, s = "num_gpus" ∨ s = "num_devices" → ∀ hasGpus g, hasGpus = true ∨ g ≠ .none → actorsOf device hasGpus c (.str s) g = .error .valueError) ∧
    (∀ s, s ≠ "max" → s ≠ "num_cpus" → s ≠ "num_gpus" → s ≠ "num_devices" → ∀ hasGpus g, actorsOf device hasGpus c (.str s) g = .error .valueError) ∧
    ((∀ gpus, c.gpu = some gpus → gpus < 1 / 10000) → ∀ hasGpus g, actorsOf device hasGpus c (.str "num_gpus") g = .error .valueError) ∧
    (∀ n g, n ≠ 1 → (device = "cpu" ∨ n < 2) → g ≠ .none → actorsOf device true c (.num n) g = .error .valueError) ∧
    (∀ n s, n ≠ 1 → (device = "cpu" ∨ n < 2) → s ≠ "max" → s ≠ "all" → actorsOf device false c (.num n) (.str s) = .error .valueError) := by
  have raise : ∀ hasGpus n g, rawActors device hasGpus c n g = .error .valueError → actorsOf device hasGpus c n g = .error .valueError := by
    intro hasGpus n g h; simp [actorsOf, h, bind, Except.bind]
  refine ⟨fun s hs hasGpus g hb => raise _ _ _ ?_, fun s h1 h2 h3 h4 hasGpus g => raise _ _ _ ?_, fun hno hasGpus g => raise _ _ _ ?_, fun n g h1 hd hg => ?_, fun n s h1 hd h2 h3 => ?_⟩
  · rcases hs with rfl | rfl
    · simp only [rawActors]
      rw [if_neg (by decide), if_pos trivial]
      cases c.gpu with
      | none => rfl
      | some gpus =>
        dsimp only
        by_cases hp : gpus < 1 / 10000
        · rw [if_pos hp]
        · rw [if_neg hp]
          cases hasGpus
          · rcases hb with hb | hb
            · cases hb
            · simp [hb]
          · rfl
    · simp only [rawActors]
      rw [if_neg (by decide), if_neg (by decide), if_pos trivial]
      cases hasGpus
      · rcases hb with hb | hb
        · cases hb
        · simp [hb]
      · rfl
  · simp [rawActors, h1, h2, h3, h4]
  · simp only [rawActors]
    rw [if_neg (by decide), if_pos trivial]
    cases hg : c.gpu with
    | none => rfl
    | some gpus => exact if_pos (hno gpus hg)
  · have hnd : ¬ (2 ≤ n ∧ device ≠ "cpu") := by rcases hd with hd | hd <;> simp [hd]
    have : settleActors device (some n, g) = .ok (n, g) := by
      simp only [settleActors, if_neg h1]; exact if_neg hnd
    simp [actorsOf, rawActors, bind, Except.bind, this, gpusOf, hg]
  · have hnd : ¬ (2 ≤ n ∧ device ≠ "cpu") := by rcases hd with hd | hd <;> simp [hd]
    have : settleActors device (some n, .str s) = .ok (n, .str s) := by
      simp only [settleActors, if_neg h1]; exact if_neg hnd
    simp [actorsOf, rawActors, bind, Except.bind, this, gpusOf, h2, h3]

/-- **C93 (sharing the GPUs).** With `num_gpus_per_actor="max"` and several actors, the shares of the actors sum up to the available GPUs; without GPUs nothing is assigned. -/
theorem C93_share_all (c : Cluster) (n : Int) (hn : 2 ≤ n) :
    (c.gpu = none → actorsOf "cpu" false c (.num n) (.str "max") = .ok (n, .none)) ∧
    (∀ gpus, c.gpu = some gpus → ∃ x : ℚ, actorsOf "cpu" false c (.num n) (.str "max") = .ok (n, .float x) ∧ (n : ℚ) * x = gpus) ∧
    actorsOf "cpu" false c (.num n) (.str "all") = .ok (n, .str "all") ∧
    ∀ k x, actorsOf "cpu" false c (.num n) (.int k) = .ok (n, .int k) ∧ actorsOf "cpu" false c (.num n) (.float x) = .ok (n, .float x) := by
  have h1 : n ≠ 1 := by omega
  have h0 : n ≠ 0 := by omega
  have hs : settled n = n := if_neg h1
  have hq : (n : ℚ) ≠ 0 := by exact_mod_cast h0
  refine ⟨fun hg => ?_, fun gpus hg => ⟨gpus / n, ?_, by field_simp⟩, ?_, fun k x => ⟨?_, ?_⟩⟩
  · simp [actorsOf, rawActors, bind, Except.bind, settle_cpu, h1, hs, gpusOf, hg, pure, Except.pure]
  · simp [actorsOf, rawActors, bind, Except.bind, settle_cpu, h1, h0, hs, gpusOf, hg, pure, Except.pure]
  · simp [actorsOf, rawActors, bind, Except.bind, settle_cpu, h1, hs, gpusOf, pure, Except.pure]
  · simp [actorsOf, rawActors, bind, Except.bind, settle_cpu, h1, hs, gpusOf, pure, Except.pure]
  · simp [actorsOf, rawActors, bind, Except.bind, settle_cpu, h1, hs, gpusOf, pure, Except.pure]

example : ∃ p, actorsOf "cpu" false ⟨some 8, some (5 / 2)⟩ (.str "num_gpus") .none = .ok (3, p) ∧ p = .float (5 / 6) := ⟨_, by decide +kernel, rfl⟩
example : actorsOf "cpu" false exampleCluster (.str "num_devices") .none = .ok (2, .int 1) := by decide +kernel
example : actorsOf "cuda" false exampleCluster (.num 4) .none = .error .valueError := by decide +kernel
example : actorsOf "cpu" false exampleCluster (.num 4) (.str "max") = .ok (4, .float (1 / 2)) := by decide +kernel

/-- **C93 violated.** With "num_devices" and a GPU as the main device, "there won't be any allocation of actors nor GPUs"; in fact the constructor raises a TypeError,
on every cluster, because the number of actors is set to None and then compared with 2. -/
theorem C93_violated_num_devices_on_gpu (device : String) (hd : device ≠ "cpu") (c : Cluster) :
    actorsOf device false c (.str "num_devices") .none = .error .typeError := by
  have : rawActors device false c (.str "num_devices") .none = .ok (none, .none) := by
    simp only [rawActors]
    rw [if_neg (by decide), if_neg (by decide), if_pos trivial, if_neg (by decide), if_neg (by decide), if_pos hd]
  simp [actorsOf, this, bind, Except.bind, settleActors]

/-- **C93 (no actors to share among).** With "max" GPUs per actor but no actors, on a cluster with GPUs, the constructor fails with a division by zero. -/
theorem C93_violated_share_among_none (c : Cluster) (gpus : ℚ) (hg : c.gpu = some gpus) (n : ActorsArg) (hn : n = .none ∨ n = .num 0) :
    actorsOf "cpu" false c n (.str "max") = .error .zeroDivisionError := by
  rcases hn with rfl | rfl <;> simp [actorsOf, rawActors, bind, Except.bind, settle_cpu, settled, gpusOf, hg]

/-! ### C94 -/

section
variable {K : Type} [Field K] [LinearOrder K] [IsStrictOrderedRing K]

/-- The number `x` lies between the two bounds, at column `j`. -/
def Within (b : Bound K × Bound K) (j : ℕ) (x : K) : Prop := b.1.at j ≤ x ∧ x ≤ b.2.at j

/-- **C94 (float problems).** For every draw of the generator, every number of a generated solution lies within the initial bounds of its column, which are the bounds if no
initial bounds were given. -/
theorem C94_within_initial_bounds_partial (c : Cluster) (a : Args K) (cfg : Config K) (h : construct c a = .ok cfg) (b : Bound K × Bound K)
    (hb : a.initialBounds = some b ∨ a.initialBounds = none ∧ a.bounds = some b) (rows cols : ℕ) (hord : ∀ j < cols, b.1.at j ≤ b.2.at j)
    (raw : Values K rows cols) (hraw : ∀ i j, 0 ≤ raw i j ∧ raw i j < 1) :
    ∃ v, generateValues cfg rows cols raw = .ok v ∧ ∀ (i : Fin rows) (j : Fin cols), Within b j (v i j) := by
  have hcfg : cfg.initialBounds = some b := by
    obtain ⟨_, _, _, _, _, _, h1, h2, _⟩ := C92_completed c a cfg h
    rcases hb with hb | ⟨hb, hb'⟩
    · exact h1 _ hb
    · rw [h2 hb, hb']
  have hobj : cfg.dtype ≠ .object := by
    obtain ⟨e, l, s, v, n, _, hl, _, _, _, _, rfl⟩ := (construct_ok c a cfg).1 h
    rw [lengthAndBounds_ok] at hl
    rcases hl with ⟨_, h1, h2, _⟩ | ⟨hd, _⟩
    · rcases hb with hb | ⟨_, hb⟩
      · rw [hb] at h2; cases h2
      · rw [hb] at h1; cases h1
    · exact hd
  refine ⟨_, by simp only [generateValues, hcfg, if_neg hobj, RandomTensors.uniformFloat]; rfl, fun i j => ?_⟩
  have h1 := hraw i j
  have h2 := hord j j.2
  constructor
  · show b.1.at j ≤ raw i j * (b.2.at j - b.1.at j) + b.1.at j
    have := mul_nonneg h1.1 (sub_nonneg.2 h2)
    linarith
  · show raw i j * (b.2.at j - b.1.at j) + b.1.at j ≤ b.2.at j
    have := mul_le_mul_of_nonneg_right h1.2.le (sub_nonneg.2 h2)
    linarith

/-- **C94 (what cannot be generated).** Without bounds, and for the dtype object, nothing is generated: the user has to override `_fill`. -/
theorem C94_needs_bounds (cfg : Config K) (rows cols : ℕ) (raw : Values K rows cols) :
    (cfg.dtype = .object → generateValues cfg rows cols raw = .error .notImplementedError) ∧
    (cfg.dtype ≠ .object → cfg.initialBounds = none → generateValues cfg rows cols raw = .error .runtimeError) := by
  refine ⟨fun h => by simp [generateValues, h], fun h h' => by simp [generateValues, h, h']⟩

theorem descending_ok (senses : List String) (h : ∀ s ∈ senses, s = "min" ∨ s = "max") :
    descending senses = .ok (senses.map fun s => decide (s = "max")) := by
  induction senses with
  | nil => rfl
  | cons s rest ih =>
    rw [descending, ih fun s' hs' => h s' (List.mem_cons_of_mem _ hs')]
    rcases h s List.mem_cons_self with rfl | rfl <;> rfl

/-- **C94 (a new batch is unevaluated).** A batch generated in any way has one row of evaluations per solution, each as wide as the objectives and the extra evaluation data,
all NaN. -/
theorem C94_unevaluated (cfg : Config K) (rows cols : ℕ) (empty symmetric : Bool) (center stdev : Option (Fin cols → K)) (uraw : Values K rows cols)
    (graw : ℕ → Fin cols → K) (b : Batch K rows cols) (h : generateBatch cfg rows cols empty symmetric center stdev uraw graw = .ok b) :
    b.evals.length = rows ∧ ∀ row ∈ b.evals, row.length = cfg.senses.length + cfg.evalDataLength.toNat ∧ ∀ x ∈ row, x = Flt.nan := by
  have key : ∀ e b', newBatch cfg rows cols e uraw = .ok b' → b'.evals = nanEvals K rows (cfg.senses.length + cfg.evalDataLength.toNat) := by
    intro e b' hb
    unfold newBatch at hb
    cases hd : descending cfg.senses with
    | error e' =>
      cases e
      · cases hv : generateValues cfg rows cols uraw <;> simp [bind, Except.bind, hv, hd, pure, Except.pure] at hb
      · simp [bind, Except.bind, hd, pure, Except.pure] at hb
    | ok d =>
      cases e
      · cases hv : generateValues cfg rows cols uraw
        · simp [bind, Except.bind, hv] at hb
        · simp [bind, Except.bind, hv, hd, pure, Except.pure] at hb; rw [← hb]
      · simp [bind, Except.bind, hd, pure, Except.pure] at hb; rw [← hb]
  have he : b.evals = nanEvals K rows (cfg.senses.length + cfg.evalDataLength.toNat) := by
    cases center <;> cases stdev <;> simp only [generateBatch] at h
    · cases symmetric
      · exact key _ _ h
      · cases h
    · cases h
    · cases h
    · cases empty
      · simp only [Bool.false_eq_true, if_false] at h
        cases hn : newBatch cfg rows cols true uraw with
        | error e => simp [bind, Except.bind, hn] at h
        | ok b' =>
          rename_i cc ss
          cases hg : RandomTensors.gaussian rows symmetric (some fun _ => cc) (some fun _ => ss) graw with
          | error e => simp [bind, Except.bind, hn, hg] at h
          | ok v =>
            simp [bind, Except.bind, hn, hg, pure, Except.pure] at h
            rw [← h]; exact key true b' hn
      · cases h
  rw [he]
  refine ⟨by simp [nanEvals], fun row hr => ?_⟩
  obtain rfl := List.eq_of_mem_replicate hr
  exact ⟨by simp, fun x hx => List.eq_of_mem_replicate hx⟩

/-- **C94 (arguments of `generate_batch`).** `center` and `stdev` go together; `symmetric` needs them; `empty` excludes them; a symmetric batch has an even size. -/
theorem C94_arguments (cfg : Config K) (rows cols : ℕ) (empty symmetric : Bool) (center stdev : Option (Fin cols → K)) (uraw : Values K rows cols) (graw : ℕ → Fin cols → K)
    (h : center.isSome ≠ stdev.isSome ∨ center = none ∧ stdev = none ∧ symmetric = true ∨ center.isSome ∧ stdev.isSome ∧ empty = true) :
    generateBatch cfg rows cols empty symmetric center stdev uraw graw = .error .valueError := by
  cases center <;> cases stdev <;> cases symmetric <;> cases empty <;> first | rfl | simp at h

/-- **C94 (gaussian batches).** With `center` and `stdev`, and valid senses, row `i` is its normal draw times `stdev` plus `center`; a symmetric batch consists of pairs
whose mean is the center. -/
theorem C94_gaussian (cfg : Config K) (hs : ∀ s ∈ cfg.senses, s = "min" ∨ s = "max") (rows cols : ℕ) (center stdev : Fin cols → K)
    (uraw : Values K rows cols) (graw : ℕ → Fin cols → K) :
    (∃ b v, generateBatch cfg rows cols false false (some center) (some stdev) uraw graw = .ok b ∧ b.values = some v ∧
      ∀ i j, v i j = center j + graw i j * stdev j) ∧
    (rows % 2 = 0 → ∃ b v, generateBatch cfg rows cols false true (some center) (some stdev) uraw graw = .ok b ∧ b.values = some v ∧
      ∀ (p : ℕ) (hp : 2 * p + 1 < rows) j, v ⟨2 * p, by omega⟩ j = center j + graw (2 * p) j * stdev j ∧ v ⟨2 * p, by omega⟩ j + v ⟨2 * p + 1, hp⟩ j = 2 * center j) ∧
    (rows % 2 ≠ 0 → generateBatch cfg rows cols false true (some center) (some stdev) uraw graw = .error .valueError) := by
  have hn : newBatch cfg rows cols true uraw = .ok ⟨none, nanEvals K rows (cfg.senses.length + cfg.evalDataLength.toNat), cfg.senses.map fun s => decide (s = "max")⟩ := by
    simp [newBatch, descending_ok _ hs, bind, Except.bind, pure, Except.pure]
  refine ⟨⟨⟨some fun i j => graw i j * stdev j + center j, nanEvals K rows (cfg.senses.length + cfg.evalDataLength.toNat), cfg.senses.map fun s => decide (s = "max")⟩, _, ?_, rfl, fun i j => ?_⟩, fun he => ?_, fun ho => ?_⟩
  · simp [generateBatch, hn, RandomTensors.gaussian, bind, Except.bind, pure, Except.pure]
  · ring
  refine ⟨⟨some fun i j => RandomTensors.mirrored graw i j * stdev j + center j, nanEvals K rows (cfg.senses.length + cfg.evalDataLength.toNat), cfg.senses.map fun s => decide (s = "max")⟩, _, ?_, rfl, fun p hp j => ⟨?_, ?_⟩⟩
  · simp [generateBatch, hn, RandomTensors.gaussian, he, bind, Except.bind, pure, Except.pure]
  · have h0 : 2 * p % 2 = 0 := by omega
    simp only [RandomTensors.mirrored, h0, if_true]; ring
  · have h0 : 2 * p % 2 = 0 := by omega
    have h1 : (2 * p + 1) % 2 ≠ 0 := by omega
    simp only [RandomTensors.mirrored, h0, if_true, if_neg h1, Nat.add_sub_cancel]; ring
  · simp [generateBatch, hn, RandomTensors.gaussian, ho, bind, Except.bind]

end

/-- **C94 (integer problems).** The same as `C94_within_initial_bounds_partial` for integer dtypes, if the range of the bounds fits into the dtype (see C69). -/
theorem C94_integers_partial (t : RandomTensors.IntType) (cfg : Config ℤ) (hobj : cfg.dtype ≠ .object) (lb ub : Bound ℤ) (hb : cfg.initialBounds = some (lb, ub)) (rows cols : ℕ)
    (hfit : ∀ j < cols, RandomTensors.Fits t (lb.at j) (ub.at j)) (raw : Values ℤ rows cols) :
    ∃ v, generateIntValues t cfg rows cols raw = .ok v ∧ v.length = rows ∧ ∀ row ∈ v, ∀ j : Fin cols, lb.at j ≤ row j ∧ row j ≤ ub.at j := by
  simp only [generateIntValues, if_neg hobj, hb]
  have key : ∀ l : List (Fin rows), ∃ v, (l.mapM fun i => RandomTensors.uniformInt t (some fun j => lb.at j) (some fun j => ub.at j) (raw i)) = .ok v ∧
      v.length = l.length ∧ ∀ row ∈ v, ∀ j : Fin cols, lb.at j ≤ row j ∧ row j ≤ ub.at j := by
    intro l
    induction l with
    | nil => exact ⟨[], rfl, rfl, by simp⟩
    | cons i rest ih =>
      obtain ⟨v, hv, hl, hin⟩ := ih
      obtain ⟨out, ho, hout⟩ := RandomTensors.C69_in_range_partial t (fun j : Fin cols => lb.at j) (fun j => ub.at j) (raw i) (fun j => hfit j j.2)
      refine ⟨out :: v, ?_, by simp [hl], ?_⟩
      · rw [List.mapM_cons, ho]; simp only [bind, Except.bind]; rw [hv]; rfl
      · intro row hr
        rcases List.mem_cons.1 hr with rfl | hr
        · exact hout
        · exact hin row hr
  obtain ⟨v, h1, h2, h3⟩ := key (List.finRange rows)
  exact ⟨v, h1, by simpa using h2, h3⟩

/-- **C94 violated.** `bounds` is documented as the "interval in which all the solutions must always reside", but nothing relates the initial bounds to it: a problem with
bounds [0, 1] and initial bounds [5, 6] is accepted, and every solution it generates lies outside of its bounds. -/
theorem C94_violated_outside_bounds : ∃ cfg : Config ℚ, construct exampleCluster ({ exampleArgs with bounds := some (.scalar 0, .scalar 1), initialBounds := some (.scalar 5, .scalar 6) } : Args ℚ) = .ok cfg ∧
    cfg.bounds = some (.scalar 0, .scalar 1) ∧
    ∀ raw : Values ℚ 4 3, (∀ i j, 0 ≤ raw i j ∧ raw i j < 1) → ∃ v, generateValues cfg 4 3 raw = .ok v ∧ ∀ (i : Fin 4) (j : Fin 3), 1 < v i j := by
  refine ⟨{ dtype := .float64, evalDtype := .float64, device := "cpu", solutionLength := some 3, bounds := some (.scalar 0, .scalar 1), initialBounds := some (.scalar 5, .scalar 6), senses := ["min"], vectorized := some true, evalDataLength := 0, numSubbatches := none, subbatchSize := none, numActors := 0, gpusPerActor := .none }, by decide +kernel, rfl, fun raw hraw => ?_⟩
  refine ⟨_, rfl, fun i j => ?_⟩
  show 1 < raw i j * (6 - 5) + 5
  have := (hraw i j).1
  linarith

/-- **C94 violated.** Bounds in the wrong order are accepted too; then generated solutions lie outside of them (above the "upper" bound). -/
theorem C94_violated_reversed_bounds : ∃ cfg : Config ℚ, construct exampleCluster ({ exampleArgs with bounds := some (.scalar 1, .scalar 0) } : Args ℚ) = .ok cfg ∧
    ∀ raw : Values ℚ 4 3, (∀ i j, 0 ≤ raw i j ∧ raw i j < 1) → ∃ v, generateValues cfg 4 3 raw = .ok v ∧ ∀ (i : Fin 4) (j : Fin 3), ¬ Within (.scalar 1, .scalar 0) j (v i j) := by
  refine ⟨{ dtype := .float64, evalDtype := .float64, device := "cpu", solutionLength := some 3, bounds := some (.scalar 1, .scalar 0), initialBounds := some (.scalar 1, .scalar 0), senses := ["min"], vectorized := some true, evalDataLength := 0, numSubbatches := none, subbatchSize := none, numActors := 0, gpusPerActor := .none }, by decide +kernel, fun raw hraw => ?_⟩
  refine ⟨_, rfl, fun i j => ?_⟩
  rintro ⟨h1, h2⟩
  simp only [Bound.at] at h1 h2
  linarith

example : ∃ v, generateValues (K := ℚ) { dtype := .float32, evalDtype := .float32, device := "cpu", solutionLength := some 2, bounds := none, initialBounds := some (.scalar (-1), .vec [1, 3]), senses := ["max"], vectorized := none, evalDataLength := 0, numSubbatches := none, subbatchSize := none, numActors := 0, gpusPerActor := .none } 1 2 (fun _ j => if j = 0 then 1 / 2 else 1 / 4) = .ok v ∧ v 0 0 = 0 ∧ v 0 1 = 0 :=
  ⟨_, rfl, by decide +kernel, by decide +kernel⟩

end EvoTorch.ProblemConfig
