import Verif.Model.MapElites
import Verif.Model.ProblemConfig
import Verif.Model.ReadOnlyTensor
/-! Boundary cases of C33, C73 and C92: what happens to the archive without re-evaluation, the class of the results of a read-only tensor, and the exceptions for senses and vectorisation. -/

namespace EvoTorch.MapElites
variable {V K : Type} [LinearOrder K]

/-- **C33 (no re-evaluation).** With `re_evaluate=False`, once a step was made the archive enters the next step as it is, evaluations included, even if the fitness function would now give other
results. -/
theorem C33_archive_not_reevaluated (cfg : Cfg K) (hre : cfg.reEvaluate = false) (st : State V K) (env env2 : GA.Env V (Ev K)) :
    (extended cfg env2 (step cfg st env)).take (step cfg st env).population.length = (step cfg st env).population := by
  have h : (step cfg st env).firstIter = false := rfl
  simp only [extended, GA.makeExtended, Cfg.ga, hre, h, Bool.false_eq_true, if_false, List.take_left]

/-- **C33 (re-evaluation).** With `re_evaluate=True` every member of the archive enters the step with the evaluation of this step. -/
theorem C33_archive_reevaluated (cfg : Cfg K) (hre : cfg.reEvaluate = true) (st : State V K) (env : GA.Env V (Ev K)) :
    (extended cfg env st).take st.population.length = st.population.map fun r => ⟨r.val, some (env.f1 r.val)⟩ := by
  simp only [extended, GA.makeExtended, Cfg.ga, hre, if_true]
  split
  · rw [List.take_left' (by simp [GA.evaluate])]; rfl
  · rw [List.take_append_drop]
    simp only [GA.evaluate, List.map_append]
    rw [List.take_left' (by simp)]

end EvoTorch.MapElites

namespace EvoTorch.ReadOnly
variable {C : Type}

/-- **C73 (class of the result).** A method of a read-only tensor which is not refused returns a read-only tensor, except for item access and `reshape` with a result in its own storage, which is
a plain tensor. -/
theorem C73_result_class (mutates : List Char → Bool) (s : State C) (i a : ℕ) (hi : s.handles[i]? = some ⟨a, .readOnly⟩) (name : List Char) (e : Effect C)
    (h : (step mutates s (.method i name e)).result = .ok ()) :
    (step mutates s (.method i name e)).state.handles = s.handles ++
      [⟨if e.shared then a else s.fresh, if (name = "__getitem__".toList ∨ name = "reshape".toList) ∧ e.shared = false then .plain else .readOnly⟩] := by
  have hk : resultKind name e.shared = if (name = "__getitem__".toList ∨ name = "reshape".toList) ∧ e.shared = false then .plain else .readOnly := by
    simp only [resultKind, independentAware, List.map_cons, List.map_nil, List.contains_cons, List.contains_nil, Bool.or_false, Bool.and_eq_true, Bool.or_eq_true, beq_iff_eq, Bool.not_eq_true']
  simp only [step, hi] at h ⊢
  split
  · next hb => rw [if_pos hb] at h; cases h
  · split
    · next hb hc => rw [if_neg hb, if_pos hc] at h; cases h
    · rw [hk]
      generalize (if (name = "__getitem__".toList ∨ name = "reshape".toList) ∧ e.shared = false then Kind.plain else Kind.readOnly) = k
      cases e.shared <;> simp only [State.give, Bool.false_eq_true, if_false, if_true] <;> split <;> rfl

example : (step (fun _ => false) (⟨fun _ => 7, 1, [⟨0, .readOnly⟩]⟩ : State ℕ) (.method 0 "reshape".toList ⟨0, false, 7⟩)).result = .ok () := by rfl

end EvoTorch.ReadOnly

namespace EvoTorch.ProblemConfig

/-- **C92 (refused senses).** A sequence of senses is refused exactly when it is empty or contains something other than "min" and "max", with a ValueError. -/
theorem C92_senses_refused (ss : List String) :
    (ss = [] ∨ (∃ s ∈ ss, s ≠ "min" ∧ s ≠ "max") → sensesOf (.many ss) = .error .valueError) ∧
    (ss ≠ [] → (∀ s ∈ ss, s = "min" ∨ s = "max") → sensesOf (.many ss) = .ok ss) := by
  refine ⟨?_, fun h1 h2 => ?_⟩
  · rintro (rfl | ⟨s, hs, h⟩)
    · rfl
    · have : (ss.all fun s => s = "min" || s = "max") = false := by
        rw [List.all_eq_false]; exact ⟨s, hs, by simp [h]⟩
      simp [sensesOf, this]
  · have : (ss.all fun s => s = "min" || s = "max") = true := by
      rw [List.all_eq_true]; intro s hs; simpa using h2 s hs
    simp [sensesOf, this, h1]

/-- **C92 (refused vectorisation).** The argument `vectorized` is refused, with a ValueError, exactly when there is no fitness function or the function is decorated as vectorised. -/
theorem C92_vectorized_refused (f : Func) (v : Option Bool) :
    (v ≠ none ∧ f ≠ .plain → vectorizedOf f v = .error .valueError) ∧ (v = none ∨ f = .plain → ∃ r, vectorizedOf f v = .ok r) := by
  cases f <;> cases v <;> simp [vectorizedOf]

end EvoTorch.ProblemConfig
