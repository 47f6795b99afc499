import Verif.Model.FitnessDevice
import Verif.Props.SetEvals
/-!
C106: a fitness function gets its solutions on the device it asks for, and the results come back.
-/
namespace EvoTorch.FitnessDevice
open EvoTorch.SetEvals
variable {V E : Type}

/-! ### Specification -/

/-- What a function asks for: nothing, the auxiliary device of the problem, or a device. -/
inductive Wish where
  | nothing
  | auxiliary
  | on (d : Device)

/-- The wish of a function after decoration; `on_aux_device` wins. -/
def wish (fn : Attrs) : Wish :=
  match fn.onAux, fn.device with
  | true, _ => .auxiliary
  | false, some d => .on d
  | false, none => .nothing

/-- The first function with a wish decides. -/
def wanted (aux : Device) : List Attrs → Option Device
  | [] => none
  | fn :: rest => match wish fn with
    | .nothing => wanted aux rest
    | .auxiliary => some aux
    | .on d => some d

/-- The documented auxiliary device. -/
def IsAux (cuda : Bool) (c : Config) (d : Device) : Prop :=
  (c.device ≠ ⟨"cpu", none⟩ → d = c.device) ∧
  (c.device = ⟨"cpu", none⟩ → cuda = false → d = ⟨"cpu", none⟩) ∧
  (c.device = ⟨"cpu", none⟩ → cuda = true → ∀ i, c.numGpusAll = true → c.actorIndex = some i → d = ⟨"cuda", some i⟩) ∧
  (c.device = ⟨"cpu", none⟩ → cuda = true → (c.numGpusAll = false ∨ c.actorIndex = none) → d = ⟨"cuda", none⟩)

/-! ### Proofs -/

theorem C106_aux_device (cuda : Bool) (c : Config) : IsAux cuda c (auxDevice cuda c) := by
  unfold IsAux auxDevice
  refine ⟨fun h => by rw [if_neg h], fun h hc => by rw [if_pos h, hc]; rfl, fun h hc i h1 h2 => by rw [if_pos h, hc, h1, h2]; rfl, fun h hc h1 => ?_⟩
  rw [if_pos h, hc]
  rcases h1 with h1 | h1
  · simp [h1]
  · simp [h1]

/-- **C106**, decorators. -/
theorem C106_decorators (d : Device) (i : Option Nat) (fn : Attrs) :
    (fn.onAux = false → wish (onDevice d fn) = .on d) ∧ (fn.onAux = false → wish (onCuda i fn) = .on ⟨"cuda", i⟩) ∧ wish (onAuxDevice fn) = .auxiliary := by
  refine ⟨fun h => ?_, fun h => ?_, ?_⟩
  · simp [wish, onDevice, h]
  · simp [wish, onCuda, onDevice, h]
  · simp [wish, onAuxDevice]

theorem deviceOfFn_eq (aux : Device) (fn : Attrs) : deviceOfFn aux (some fn) = wanted aux [fn] := by
  obtain ⟨a, d⟩ := fn
  cases a <;> cases d <;> rfl

theorem wanted_cons (aux : Device) (fn : Attrs) (rest : List Attrs) : wanted aux (fn :: rest) = (deviceOfFn aux (some fn)).or (wanted aux rest) := by
  obtain ⟨a, d⟩ := fn
  cases a <;> cases d <;> simp [wanted, wish, deviceOfFn]

theorem deviceOfFitness_eq (aux : Device) (F : Functions) (h : wish F.evaluateAll = .nothing) :
    deviceOfFitness aux F = .ok (wanted aux (F.objective.toList ++ [F.evaluateBatch, F.evaluate])) := by
  have hall : deviceOfFn aux (some F.evaluateAll) = none := by
    rw [deviceOfFn_eq, wanted, h]; rfl
  unfold deviceOfFitness
  cases ho : F.objective with
  | none =>
    simp only [deviceLoop, hall, Option.toList_none, List.nil_append, wanted_cons]
    have hn : wanted aux [] = none := rfl
    rw [hn]
    have : deviceOfFn aux none = none := rfl
    simp only [this]
    cases deviceOfFn aux (some F.evaluateBatch) <;> cases deviceOfFn aux (some F.evaluate) <;> simp
  | some o =>
    simp only [deviceLoop, hall, Option.toList_some, List.singleton_append, wanted_cons]
    have hn : wanted aux [] = none := rfl
    rw [hn]
    cases deviceOfFn aux (some o) <;> cases deviceOfFn aux (some F.evaluateBatch) <;> cases deviceOfFn aux (some F.evaluate) <;> simp

theorem setEvals_full (nan : E) (m q : Nat) (old new : List (List E)) (hlen : new.length = old.length) (hw : ∀ r ∈ new, r.length = m + q) :
    setEvals nan m q old (.mat (m + q) new) none none = ⟨new, .ok ()⟩ := by
  have hwr : writeRows old ((List.range old.length).zip new) = new := by
    have h := C14_set_evals_exact nan 0 (m + q) old (.mat (0 + (m + q)) new) none none (by simp)
    refine List.ext_getElem? fun i => ?_
    have key : ∀ (ps : List (Nat × List E)) (ev : List (List E)), (writeRows ev ps).length = ev.length := writeRows_length
    by_cases hi : i < old.length
    · have hmem : (i, new[i]'(by omega)) ∈ (List.range old.length).zip new := by
        apply List.mem_of_getElem? (i := i)
        rw [List.getElem?_zip_eq_some]
        exact ⟨by simp [hi], List.getElem?_eq_getElem (by omega)⟩
      have hfst : ((List.range old.length).zip new).map Prod.fst = List.range old.length := List.map_fst_zip (by simp; omega)
      rw [writeRows_mem _ _ _ _ (by rw [hfst]; exact List.nodup_range) hmem hi, List.getElem?_eq_getElem (by omega)]
    · rw [List.getElem?_eq_none (by rw [key]; omega), List.getElem?_eq_none (by omega)]
  have hnan : ∀ l : List (List E), q = 0 → l.map (· ++ List.replicate q nan) = l := by
    intro l h0; subst h0; simp
  simp only [setEvals, selected, List.length_range, hlen, ne_eq, not_true_eq_false, if_false]
  by_cases h0 : q = 0
  · subst h0; simp [hwr]
  · rw [if_neg (by omega), if_pos trivial, hwr]

/-- **C106.** Evaluating a batch calls the fitness function once, with the same values, on the device which the first of the objective function, `_evaluate_batch` and `_evaluate` asks for, or on the
device of the batch if none asks. Afterwards the batch has the same device and values, and the evaluation results which the function left; if the function raises an exception, the batch is unchanged.
Restricted to problems whose `_evaluate_all` asks for nothing. -/
theorem C106_evaluation_partial (nan : E) (m q : Nat) (aux : Device) (F : Functions) (hF : wish F.evaluateAll = .nothing) (run : Batch V E → Except PyErr (List (List E)))
    (hrun : ∀ b ev, run b = .ok ev → ev.length = b.evals.length ∧ ∀ r ∈ ev, r.length = m + q) (b : Batch V E) (hb : b.isObject = false) :
    let there : Batch V E := { b with device := (wanted aux (F.objective.toList ++ [F.evaluateBatch, F.evaluate])).getD b.device }
    (evaluateAll nan m q aux F run b).2 = [there] ∧
    (∀ ev, run there = .ok ev → (evaluateAll nan m q aux F run b).1 = ⟨{ b with evals := ev }, .ok ()⟩) ∧
    (∀ e, run there = .error e → (evaluateAll nan m q aux F run b).1 = ⟨b, .error e⟩) := by
  simp only [evaluateAll, deviceOfFitness_eq aux F hF]
  cases wanted aux (F.objective.toList ++ [F.evaluateBatch, F.evaluate]) with
  | none =>
    simp only [Option.getD_none]
    cases hr : run b with
    | error e => simp
    | ok ev => simp
  | some d =>
    simp only [Option.getD_some, Batch.to, hb]
    cases hr : run ({ b with device := d } : Batch V E) with
    | error e => simp [hb] at hr ⊢; simp [hr]
    | ok ev =>
      have h1 := hrun _ ev hr
      have h2 := setEvals_full nan m q b.evals ev (by simpa using h1.1) h1.2
      simp [hb] at hr ⊢
      simp [hr, h2]

/-- **C106 violated.** A device asked for by `_evaluate_all` is documented to be refused with a RuntimeError. It is not: two accesses to a method never give the same object, so that the check always
fails, and the batch is moved. -/
theorem C106_violated_evaluate_all (aux : Device) (d : Device) (F : Functions) (h : F.evaluateAllIsStable = false) (ho : F.objective = none)
    (hd : F.evaluateAll = onDevice d ⟨false, none⟩) : deviceOfFitness aux F = .ok (some d) := by
  simp [deviceOfFitness, deviceLoop, deviceOfFn, ho, hd, onDevice, h]

/-- The check works if `_evaluate_all` is not a method but an attribute of the problem object. -/
theorem C106_refused_partial (aux : Device) (F : Functions) (h : F.evaluateAllIsStable = true) (ho : F.objective = none) (hd : wish F.evaluateAll ≠ .nothing) :
    deviceOfFitness aux F = .error .runtimeError := by
  unfold wish at hd
  simp only [deviceOfFitness, deviceLoop, deviceOfFn, ho, h]
  cases h1 : F.evaluateAll.onAux <;> cases h2 : F.evaluateAll.device <;> simp_all

/-! ### Non-vacuity -/

/-- An objective function decorated with `on_aux_device`, `_evaluate_batch` with `on_cuda(1)`. -/
def exFunctions : Functions := ⟨some (onAuxDevice {}), {}, onCuda (some 1) {}, {}, false⟩

example : wish exFunctions.evaluateAll = .nothing := rfl
example : (evaluateAll (0 : Int) 1 0 (auxDevice true ⟨⟨"cpu", none⟩, true, some 3⟩) exFunctions
    (fun b : Batch Int Int => .ok (b.values.map fun v => [if b.device = ⟨"cuda", some 3⟩ then v * v else 0])) ⟨⟨"cpu", none⟩, false, [2, 3], [[0], [0]]⟩).1.state.evals = [[4], [9]] := by
  decide

end EvoTorch.FitnessDevice
