import Verif.Model.GradRequest
import Verif.Props.BatchMake
/-!
C143: what a request for gradients answers: for which objective, in which form, on which device and in which dtype, and which hooks see it.
-/
namespace EvoTorch.GradRequest
open EvoTorch EvoTorch.BatchAccess

variable {D β G K : Type}

/-- The answer meant by the documentation: the gradients of the distribution `d` are computed on the device for gradients, from all the solutions sampled there and their evaluation results for objective
number `k`, in the sense of that objective, and arrive on the device of the problem. -/
def expected [Inhabited K] (w : World D β G K) (p : Problem) (d : D) (k : ℕ) (ranking : Option String) : Answer G K :=
  let d' := w.moveTo (p.fitnessDevice.getD p.device) d
  let rows := w.sample d'
  let fitnesses := rows.map fun r => (w.evals r).getD k default
  let grads := w.compute d' rows fitnesses (p.senses.getD k "") ranking
  ⟨if p.fitnessDevice.getD p.device ≠ p.device then w.moveGrads p.device grads else grads, rows.length, w.mean fitnesses⟩

theorem work_ok [Inhabited K] (w : World D β G K) (p : Problem) (hev : ∀ r, p.senses.length ≤ (w.evals r).length) (d : D) (ranking : Option String) (i : ℤ) (k : ℕ) (hk : k < p.senses.length)
    (hik : i = k ∨ i = (k : ℤ) - p.senses.length) : work w p d (some i) ranking = .ok (expected w p d k ranking) := by
  have hj : (if i < 0 then (p.senses.length : ℤ) + i else i) = (k : ℤ) := by
    rcases hik with rfl | rfl
    · rw [if_neg (by omega)]
    · rw [if_pos (by omega)]; omega
  have h1 : normObj p.senses.length i = .ok k := by
    simp only [normObj, hj]
    rw [if_neg (by omega)]
    simp
  have h2 : pyGet p.senses i = .ok (p.senses.getD k "") := by
    simp only [pyGet, hj]
    rw [if_neg (by omega)]
    simp [hk]
  have h3 : ∀ rows : List β, column p.senses.length w.evals rows i = .ok (rows.map fun r => (w.evals r).getD k default) := by
    intro rows
    simp only [column, h1, bind, Except.bind]
    apply BatchMake.mapM_ok
    intro r _
    have := hev r
    rw [List.getElem?_eq_getElem (by omega)]
    simp [List.getD_eq_getElem?_getD, List.getElem?_eq_getElem (show k < (w.evals r).length by omega)]
  simp only [work, h3, h2, bind, Except.bind, expected, Problem.gradDevice]
  rfl

/-- C143: on an instance that does not use actors, a request for an objective, given by its index, counted from the end if negative, or left out if there is only one, gives the expected answer, with or without
statistics, computed from the distribution in the dtype and on the device of the problem. -/
theorem C143_local [Inhabited K] (w : World D β G K) (p : Problem) (hev : ∀ r, p.senses.length ≤ (w.evals r).length)
    (hcast : ∀ d t v, w.dtype (w.cast t v d) = t ∧ w.device (w.cast t v d) = v) (d : D) (ranking : Option String) (withStats main : Bool) (tasks : Option (List (D → List β))) (hl : main = false ∨ tasks = none)
    (num max : Option ℕ) (hm : num = none → max = none) (k : ℕ) (hk : k < p.senses.length) (obj : Option ℤ)
    (ho : obj = some (k : ℤ) ∨ obj = some ((k : ℤ) - p.senses.length) ∨ (obj = none ∧ p.senses.length = 1)) :
    ∃ d', w.dtype d' = p.dtype ∧ w.device d' = p.device ∧ (w.dtype d = p.dtype → w.device d = p.device → d' = d) ∧
      (request w p main tasks num max d obj ranking withStats).1 = .ok (.one (if withStats then .stats (expected w p d' k ranking) else .bare (expected w p d' k ranking).gradients)) := by
  refine ⟨if w.dtype d ≠ p.dtype ∨ w.device d ≠ p.device then w.cast p.dtype p.device d else d, ?_, ?_, ?_, ?_⟩
  · split
    · exact (hcast _ _ _).1
    · rename_i h; push Not at h; exact h.1
  · split
    · exact (hcast _ _ _).2
    · rename_i h; push Not at h; exact h.2
  · intro h1 h2
    rw [if_neg (by simp [h1, h2])]
  · have hn : normProblemObj p.senses.length obj = .ok k := by
      rcases ho with rfl | rfl | ⟨rfl, h⟩
      · simp only [normProblemObj]
        rw [if_neg (by omega), if_neg (by omega)]; simp
      · simp only [normProblemObj]
        rw [if_pos (show (k : ℤ) - p.senses.length < 0 by omega), if_neg (by omega)]
        congr 1; omega
      · simp only [normProblemObj, if_pos h]
        congr 1; omega
    have hh : helper w p d obj ranking withStats = .ok (if withStats then .stats (expected w p (if w.dtype d ≠ p.dtype ∨ w.device d ≠ p.device then w.cast p.dtype p.device d else d) k ranking)
        else .bare (expected w p (if w.dtype d ≠ p.dtype ∨ w.device d ≠ p.device then w.cast p.dtype p.device d else d) k ranking).gradients) := by
      simp only [helper, hn, bind, Except.bind]
      rw [work_ok w p hev _ ranking k k hk (.inl rfl)]
    have hc : (num.isNone && max.isSome) = false := by
      cases num with
      | none => simp [hm rfl]
      | some _ => rfl
    unfold request
    rw [hc]
    rcases hl with rfl | rfl
    · simp only [Bool.false_eq_true, if_false, hh, Except.map]
    · cases main <;> simp only [Bool.false_eq_true, if_false, hh, Except.map]

/-- C143: if the main instance uses actors, a request for an objective given by its index gives the list of the expected answers of the tasks, in the order in which they finish, moved to the device of the
problem, computed from the given distribution. -/
theorem C143_remote_partial [Inhabited K] (w : World D β G K) (p : Problem) (hev : ∀ r, p.senses.length ≤ (w.evals r).length) (d : D) (ranking : Option String) (withStats : Bool)
    (tasks : List (D → List β)) (num max : Option ℕ) (hm : num = none → max = none) (k : ℕ) (hk : k < p.senses.length) (i : ℤ) (hi : i = k ∨ i = (k : ℤ) - p.senses.length) :
    (request w p true (some tasks) num max d (some i) ranking withStats).1 = .ok (.many (tasks.map fun s =>
      let a := expected { w with sample := s } p (w.moveTo "cpu" d) k ranking
      .stats { a with gradients := if p.device ≠ "cpu" then w.moveGrads p.device a.gradients else a.gradients })) := by
  have hc : (num.isNone && max.isSome) = false := by
    cases num with
    | none => simp [hm rfl]
    | some _ => rfl
  have hm : (tasks.mapM fun s => work { w with sample := s } p (w.moveTo "cpu" d) (some i) ranking) =
      .ok (tasks.map fun s => expected { w with sample := s } p (w.moveTo "cpu" d) k ranking) := by
    apply BatchMake.mapM_ok
    intro s _
    exact work_ok { w with sample := s } p hev _ ranking i k hk hi
  have hr : remote w p d (some i) ranking tasks = .ok (.many (tasks.map fun s =>
      let a := expected { w with sample := s } p (w.moveTo "cpu" d) k ranking
      .stats { a with gradients := if p.device ≠ "cpu" then w.moveGrads p.device a.gradients else a.gradients })) := by
    simp only [remote, hm, bind, Except.bind]
    by_cases hd : p.device ≠ "cpu"
    · simp only [if_pos hd, List.map_map, Function.comp_def]
    · simp only [if_neg hd, List.map_map, Function.comp_def]
  unfold request
  rw [hc]
  simp only [Bool.false_eq_true, if_false, hr]

/-- C143: on the main instance, the hook before comes first and is called in every case but an inconsistent maximum of the population size; the hook after comes last, once, and receives what is returned; it is not
called if there is an error. Actors call no hooks. -/
theorem C143_hooks (w : World D β G K) (p : Problem) (d : D) (ranking : Option String) (withStats main : Bool) (tasks : Option (List (D → List β))) (num max : Option ℕ) (obj : Option ℤ) :
    let r := request w p main tasks num max d obj ranking withStats
    (num = none → max ≠ none → r = (.error .valueError, [])) ∧
    (main = false → r.2 = []) ∧
    (main = true → (num = none → max = none) → (∀ x, r.1 = .ok x → r.2 = [.beforeHook, .afterHook x]) ∧ (∀ e, r.1 = .error e → r.2 = [.beforeHook])) := by
  refine ⟨?_, ?_, ?_⟩
  · rintro rfl h
    obtain ⟨m, rfl⟩ := Option.ne_none_iff_exists'.1 h
    rfl
  · rintro rfl
    simp only [request]
    split
    · rfl
    · split <;> rfl
  · rintro rfl hm
    have hc : (num.isNone && max.isSome) = false := by
      cases num with
      | none => simp [hm rfl]
      | some _ => rfl
    simp only [request, hc, Bool.false_eq_true, if_false]
    split
    · exact ⟨fun x hx => (by cases hx), fun e he => rfl⟩
    · exact ⟨fun x hx => (by cases hx; rfl), fun e he => (by cases he)⟩

/-- C143: an index beyond the objectives is an IndexError, with and without actors; no index for several objectives is a ValueError on an instance that does not use actors. -/
theorem C143_refused (w : World D β G K) (p : Problem) (d : D) (ranking : Option String) (withStats main : Bool) (num max : Option ℕ) (hm : num = none → max = none) :
    (∀ (i : ℤ) (tasks : Option (List (D → List β))), (i < -p.senses.length ∨ (p.senses.length : ℤ) ≤ i) → tasks ≠ some [] →
      (request w p main tasks num max d (some i) ranking withStats).1 = .error .indexError) ∧
    (p.senses.length ≠ 1 → (request w p main none num max d none ranking withStats).1 = .error .valueError) := by
  have hc : (num.isNone && max.isSome) = false := by
    cases num with
    | none => simp [hm rfl]
    | some _ => rfl
  constructor
  · intro i tasks hi ht
    have hn : normProblemObj p.senses.length (some i) = .error .indexError := by
      simp only [normProblemObj]
      rcases hi with hi | hi
      · rw [if_pos (show i < 0 by omega), if_pos (by omega)]
      · rw [if_neg (show ¬ i < 0 by omega), if_pos (by omega)]
    have hh : helper w p d (some i) ranking withStats = .error .indexError := by
      simp only [helper, hn, bind, Except.bind]
    have hp : pyGet p.senses i = .error .indexError := by
      simp only [pyGet]
      rcases hi with hi | hi
      · rw [if_pos (show i < 0 by omega), if_pos (by omega)]
      · rw [if_neg (show ¬ i < 0 by omega), if_neg (by omega), List.getElem?_eq_none (by omega)]
    have hw : ∀ (s : D → List β) (d : D), work { w with sample := s } p d (some i) ranking = .error .indexError := by
      intro s d
      simp only [work]
      have hcol : ∀ rows : List β, (∃ c, column p.senses.length w.evals rows i = .ok c) ∨ column p.senses.length w.evals rows i = .error .indexError := by
        intro rows
        unfold column normObj
        generalize hj : (if i < 0 then (p.senses.length : ℤ) + i else i) = j
        by_cases hb : j < 0 ∨ j > (p.senses.length : ℤ)
        · right
          simp only [if_pos hb, bind, Except.bind]
        · simp only [if_neg hb, bind, Except.bind]
          clear hb hj
          induction rows with
          | nil => exact .inl ⟨[], rfl⟩
          | cons r rows ih =>
            rw [List.mapM_cons]
            cases he : (w.evals r)[j.toNat]? with
            | none => right; rfl
            | some x =>
              rcases ih with ⟨c, hc⟩ | hc
              · left; exact ⟨x :: c, by simp only [hc]; rfl⟩
              · right; simp only [hc]; rfl
      rcases hcol (s (w.moveTo p.gradDevice d)) with ⟨c, hc⟩ | hc
      · simp only [hc, hp, bind, Except.bind]
      · simp only [hc, bind, Except.bind]
    unfold request
    rw [hc]
    cases main with
    | false => simp only [Bool.false_eq_true, if_false, hh, Except.map]
    | true =>
      cases tasks with
      | none => simp only [Bool.false_eq_true, if_false, hh, Except.map]
      | some ts =>
        cases ts with
        | nil => exact absurd rfl ht
        | cons s ts =>
          have hr : remote w p d (some i) ranking (s :: ts) = .error .indexError := by
            simp only [remote, List.mapM_cons, hw, bind, Except.bind]
          simp only [Bool.false_eq_true, if_false, hr]
  · intro h
    have hh : helper w p d none ranking withStats = .error .valueError := by
      simp only [helper, normProblemObj, if_neg h, bind, Except.bind]
    unfold request
    rw [hc]
    cases main <;> simp only [Bool.false_eq_true, if_false, hh, Except.map]

/-- C143 fails: with actors, a request that leaves the index out is a TypeError, even if there is only one objective. -/
theorem C143_violated_none (w : World D β G K) (p : Problem) (d : D) (ranking : Option String) (withStats : Bool) (s : D → List β) (tasks : List (D → List β)) :
    (request w p true (some (s :: tasks)) none none d none ranking withStats).1 = .error .typeError := by
  have hr : remote w p d none ranking (s :: tasks) = .error .typeError := by
    simp only [remote, List.mapM_cons, work, bind, Except.bind]
  simp only [request, Option.isSome_none, Bool.and_false, Bool.false_eq_true, if_false, hr]

/-- C143 fails: with actors, the results come with statistics even if these were not asked for. -/
theorem C143_violated_stats (w : World D β G K) (p : Problem) (d : D) (ranking : Option String) (s : List (D → List β)) (obj : Option ℤ) (r : Returned G K)
    (h : (request w p true (some s) none none d obj ranking false).1 = .ok r) : ∃ l : List (Answer G K), l.length = s.length ∧ r = .many (l.map .stats) := by
  simp only [request, Option.isSome_none, Bool.and_false, Bool.false_eq_true, if_false, remote, bind, Except.bind] at h
  cases hm : (s.mapM fun s => work { w with sample := s } p (w.moveTo "cpu" d) obj ranking) with
  | error e => rw [hm] at h; cases h
  | ok l =>
    rw [hm] at h
    cases h
    have hlen : l.length = s.length := by
      induction s generalizing l with
      | nil => cases hm; rfl
      | cons a s ih =>
        rw [List.mapM_cons] at hm
        cases h1 : work { w with sample := a } p (w.moveTo "cpu" d) obj ranking with
        | error e => rw [h1] at hm; cases hm
        | ok x =>
          cases h2 : (s.mapM fun s => work { w with sample := s } p (w.moveTo "cpu" d) obj ranking) with
          | error e => rw [h1, h2] at hm; cases hm
          | ok xs =>
            rw [h1, h2] at hm
            cases hm
            simp [ih xs h2]
    refine ⟨_, ?_, rfl⟩
    split
    · simp [hlen]
    · exact hlen

/-- A world for the examples: a distribution is its dtype and device, a solution is its evaluation data, and the gradients say of which dtype the distribution was, which fitnesses were used, and in which sense. -/
def exWorld : World (String × String) (List ℕ) (String × String × List ℕ × String) ℕ where
  dtype := Prod.fst
  device := Prod.snd
  moveTo v d := (d.1, v)
  cast t v _ := (t, v)
  sample _ := [[1, 2, 7], [3, 4, 8]]
  evals r := r
  compute d _ f s _ := (d.1, d.2, f, s)
  moveGrads v g := (g.1, v, g.2.2)
  mean l := l.sum / l.length

/-- Two objectives and one column of evaluation data. -/
def exProblem : Problem := ⟨["min", "max"], "float32", "cpu", none⟩

/-- C143 fails: with actors, a distribution of another dtype is not converted to the dtype of the problem, without actors it is. -/
theorem C143_violated_dtype (w : World D β G K) (p : Problem) (hto : ∀ d v, w.dtype (w.moveTo v d) = w.dtype d) (d : D) (hd : w.dtype d ≠ p.dtype) :
    w.dtype (w.moveTo p.gradDevice (w.moveTo "cpu" d)) ≠ p.dtype ∧
    (request exWorld exProblem true (some [exWorld.sample]) none none ("float64", "cpu") (some (-1)) none true).1 = .ok (.many [.stats ⟨("float64", "cpu", [2, 4], "max"), 2, 3⟩]) ∧
    (request exWorld exProblem true none none none ("float64", "cpu") (some (-1)) none true).1 = .ok (.one (.stats ⟨("float32", "cpu", [2, 4], "max"), 2, 3⟩)) := by
  refine ⟨?_, rfl, rfl⟩
  rw [hto, hto]
  exact hd

example : (∀ r ∈ exWorld.sample ("", ""), exProblem.senses.length ≤ (exWorld.evals r).length) ∧ (∀ d t v, exWorld.dtype (exWorld.cast t v d) = t ∧ exWorld.device (exWorld.cast t v d) = v) :=
  ⟨by decide +kernel, fun _ _ _ => ⟨rfl, rfl⟩⟩
example : (request exWorld ⟨["min"], "float32", "cuda", some "cpu"⟩ true none none none ("float32", "cuda") none none false).1 = .ok (.one (.bare ("float32", "cuda", [1, 3], "min"))) := rfl

end EvoTorch.GradRequest
