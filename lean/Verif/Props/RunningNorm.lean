import Verif.Model.RunningNorm
import Verif.Spec.RunningNorm
import Mathlib.Analysis.Real.Sqrt
import Mathlib.Data.Rat.Floor
import Mathlib.Data.Fin.VecNotation
import Mathlib.Algebra.BigOperators.Fin
import Mathlib.Tactic.FieldSimp
/-! Properties C57 and C58: observation statistics; C84: the caller's tensors. -/
namespace EvoTorch.RunningNorm
variable {K : Type} [Field K] [LinearOrder K] {d : Nat}

/-- A finite observation as floats. -/
def emb (x : Fin d → K) : Obs K d := fun j => .fin (x j)

/-- What the code does on a history. -/
def run : Spec.History K d → Except PyErr (RN K d)
  | .empty => .ok RN.empty
  | .single h x => (run h).bind fun s => s.update (.single (emb x)) none
  | .batch h rows => (run h).bind fun s => s.update (.batch (rows.map emb)) none
  | .masked h rows mask => (run h).bind fun s => s.update (.batch (rows.map emb)) (some mask)
  | .merge h other => (run h).bind fun s => (run other).bind fun o => s.merge o none true
  | .reset h => (run h).map fun _ => RN.empty

theorem foldl_addObs (rows : List (Fin d → K)) : ∀ a : Fin d → K,
    (rows.map emb).foldl addObs (emb a) = emb fun j => a j + (rows.map fun x => x j).sum := by
  induction rows with
  | nil => intro a; simp
  | cons r rs ih =>
    intro a
    have : addObs (emb a) (emb r) = emb fun j => a j + r j := by funext j; simp [addObs, emb, Flt.add]
    simp only [List.map_cons, List.foldl_cons, this, ih, List.sum_cons, add_assoc]

theorem sumRows_emb (rows : List (Fin d → K)) : sumRows (rows.map emb) = emb fun j => (rows.map fun x => x j).sum := by
  have h := foldl_addObs rows (fun _ => 0)
  simp only [zero_add] at h
  exact h

theorem sqObs_emb (x : Fin d → K) : sqObs (emb x) = emb fun j => x j * x j := by
  funext j; simp [sqObs, emb, Flt.mul]

theorem sumRows_sq (rows : List (Fin d → K)) :
    sumRows ((rows.map emb).map sqObs) = emb fun j => (rows.map fun x => x j * x j).sum := by
  have h : (rows.map emb).map sqObs = (rows.map fun x j => x j * x j).map emb := by
    simp [List.map_map, Function.comp_def, sqObs_emb]
  rw [h, sumRows_emb]; simp [List.map_map, Function.comp_def]

/-- The state that holds the data of `xs`. -/
def holding (xs : List (Fin d → K)) : RN K d :=
  if xs = [] then RN.empty
  else { sum := some (emb fun j => (xs.map fun x => x j).sum), sumSq := some (emb fun j => (xs.map fun x => x j * x j).sum), count := xs.length }

theorem absorb_holding (xs ys : List (Fin d → K)) (h : xs ≠ [] ∨ ys ≠ []) :
    (holding xs).absorb (emb fun j => (ys.map fun x => x j).sum) (emb fun j => (ys.map fun x => x j * x j).sum) ys.length
      = .ok (holding (xs ++ ys)) := by
  by_cases hx : xs = []
  · subst hx
    have hy : ys ≠ [] := by simpa using h
    simp [holding, hy, RN.absorb, RN.hasNoData, RN.empty]
  · have hl : 0 < xs.length := List.length_pos_of_ne_nil hx
    simp only [holding, hx, if_false, RN.absorb, RN.hasNoData, RN.hasData, List.append_eq_nil_iff, false_and]
    simp [hl]
    constructor <;> funext j <;> simp [addObs, emb, Flt.add]

theorem select_sublist_count {α : Type} : ∀ (rows : List α) (m : List Bool), m.length = rows.length →
    (Spec.select rows m).length = m.count true := by
  intro rows
  induction rows with
  | nil => intro m h; cases m <;> simp_all [Spec.select]
  | cons r rs ih =>
    intro m h
    cases m with
    | nil => simp at h
    | cons b bs =>
      have := ih bs (by simpa using h)
      cases b <;> simp [Spec.select, this]

theorem sum_zipWith_mask (f : (Fin d → K) → K) (hf : f (fun _ => 0) = 0) : ∀ (rows : List (Fin d → K)) (m : List Bool),
    m.length = rows.length →
    ((List.zipWith (fun (x : Fin d → K) b => if b then x else fun _ => 0) rows m).map f).sum = ((Spec.select rows m).map f).sum := by
  intro rows
  induction rows with
  | nil => intro m h; simp [Spec.select]
  | cons r rs ih =>
    intro m h
    cases m with
    | nil => simp at h
    | cons b bs =>
      have := ih bs (by simpa using h)
      cases b
      · simp only [List.zipWith_cons_cons, Bool.false_eq_true, if_false, List.map_cons, List.sum_cons, hf, zero_add, Spec.select]
        exact this
      · simp only [List.zipWith_cons_cons, if_true, List.map_cons, List.sum_cons, Spec.select]
        rw [this]

theorem zipWith_maskRow (rows : List (Fin d → K)) (m : List Bool) :
    List.zipWith maskRow (rows.map emb) m = (List.zipWith (fun (x : Fin d → K) b => if b then x else fun _ => 0) rows m).map emb := by
  rw [List.zipWith_map_left, List.map_zipWith]
  congr 1
  funext x b
  funext j
  cases b <;> simp [maskRow, maskValue, emb, Flt.mul]

theorem update_batch_holding (xs ys : List (Fin d → K)) (h : xs ≠ [] ∨ ys ≠ []) :
    (holding xs).update (.batch (ys.map emb)) none = .ok (holding (xs ++ ys)) := by
  have := absorb_holding xs ys h
  simpa only [RN.update, sumRows_emb, sumRows_sq, List.length_map] using this

theorem update_masked_holding (xs ys : List (Fin d → K)) (m : List Bool) (hm : m.length = ys.length)
    (h : xs ≠ [] ∨ Spec.select ys m ≠ []) :
    (holding xs).update (.batch (ys.map emb)) (some m) = .ok (holding (xs ++ Spec.select ys m)) := by
  have := absorb_holding xs (Spec.select ys m) h
  rw [select_sublist_count ys m hm] at this
  have h1 := fun j : Fin d => sum_zipWith_mask (fun x : Fin d → K => x j) rfl ys m hm
  have h2 := fun j : Fin d => sum_zipWith_mask (fun x : Fin d → K => x j * x j) (by simp) ys m hm
  simp only [RN.update, List.length_map, hm, bne_self_eq_false, Bool.false_eq_true, if_false, zipWith_maskRow, sumRows_emb, sumRows_sq,
    h1, h2]
  exact this

theorem run_eq_holding : ∀ h : Spec.History K d, h.WellFormed → run h = .ok (holding h.seen) := by
  intro h
  induction h with
  | empty => intro _; simp [run, Spec.History.seen, holding]
  | single h x ih =>
    intro w
    have := absorb_holding h.seen [x] (by simp)
    simp only [List.map_cons, List.map_nil, List.sum_singleton, List.length_singleton] at this
    simp only [run, ih w, Spec.History.seen, Except.bind, RN.update, Option.isSome, Bool.false_eq_true, if_false, sqObs_emb]
    exact this
  | batch h rows ih =>
    intro w
    simp only [run, ih w.1, Spec.History.seen, Except.bind]
    exact update_batch_holding _ _ w.2.symm
  | masked h rows mask ih =>
    intro w
    simp only [run, ih w.1, Spec.History.seen, Except.bind]
    exact update_masked_holding _ _ _ w.2.1 w.2.2.symm
  | merge h other ih1 ih2 =>
    intro w
    simp only [run, ih1 w.1, ih2 w.2, Spec.History.seen, Except.bind]
    by_cases ho : other.seen = []
    · simp [ho, RN.merge, holding, RN.empty]
    · have hl : other.seen.length ≠ 0 := by simpa using ho
      have := absorb_holding h.seen other.seen (Or.inr ho)
      have e : holding other.seen = { sum := some (emb fun j => (other.seen.map fun x => x j).sum), sumSq := some (emb fun j => (other.seen.map fun x => x j * x j).sum), count := other.seen.length } := by
        simp [holding, ho]
      rw [e]
      simpa [RN.merge, ho] using this
  | reset h ih =>
    intro w
    simp [run, ih w, Spec.History.seen, Except.map, holding]

theorem var_identity [IsStrictOrderedRing K] (xs : List (Fin d → K)) (hx : xs ≠ []) (j : Fin d) :
    (xs.map fun x => x j * x j).sum / xs.length
      - ((xs.map fun x => x j).sum / xs.length) * ((xs.map fun x => x j).sum / xs.length) = Spec.variance xs j := by
  have hn : (xs.length : K) ≠ 0 := by
    have := List.length_pos_of_ne_nil hx
    exact_mod_cast this.ne'
  have key : ∀ (m : K) (ys : List (Fin d → K)), (ys.map fun x => (x j - m) ^ 2).sum
      = (ys.map fun x => x j * x j).sum - 2 * m * (ys.map fun x => x j).sum + ys.length * m ^ 2 := by
    intro m ys
    induction ys with
    | nil => simp
    | cons y ys ih => simp only [List.map_cons, List.sum_cons, ih, List.length_cons, Nat.cast_add, Nat.cast_one]; ring
  unfold Spec.variance
  rw [key]
  unfold Spec.mean
  field_simp
  ring

theorem variance_nonneg [IsStrictOrderedRing K] (xs : List (Fin d → K)) (j : Fin d) : 0 ≤ Spec.variance xs j := by
  unfold Spec.variance
  apply div_nonneg
  · apply List.sum_nonneg
    intro a ha
    obtain ⟨x, _, rfl⟩ := List.mem_map.1 ha
    positivity
  · positivity

/-- **C57.** Whatever the history of updates with single observations, batches, masked batches and other normalisers, merged and
reset at will: no update fails, the count is the number of observations seen, the mean is their mean and the variance their
variance, but at least `min_variance`. -/
theorem C57_running_stats_are_batch_stats [IsStrictOrderedRing K] (h : Spec.History K d) (w : h.WellFormed) (minVar : K) :
    ∃ s, run h = .ok s ∧ s.count = h.seen.length ∧
      (h.seen ≠ [] → s.mean = .ok (fun j => .fin (Spec.mean h.seen j)) ∧
        s.variance minVar = .ok (fun j => .fin (max (Spec.variance h.seen j) minVar))) := by
  refine ⟨_, run_eq_holding h w, ?_, ?_⟩
  · unfold holding; split <;> simp_all [RN.empty]
  · intro hs
    have hn : h.seen.length ≠ 0 := by simpa using hs
    constructor
    · simp [holding, hs, RN.mean, divCount, emb, Spec.mean]
    · simp only [holding, hs, if_false, RN.variance, Option.elim, divCount, emb, hn, Flt.mul, Flt.sub, var_identity _ hs, Flt.max2, Flt.lt]
      congr 1; funext j
      rcases lt_or_ge (Spec.variance h.seen j) minVar with hlt | hge
      · simp [hlt, hlt.le]
      · simp [not_lt.2 hge, hge]

/-- **C57.** Only which observations were seen matters: two histories which saw the same observations, in any order and any
grouping, end with the same count, mean and variance. -/
theorem C57_order_and_grouping_irrelevant [IsStrictOrderedRing K] (h₁ h₂ : Spec.History K d) (w₁ : h₁.WellFormed) (w₂ : h₂.WellFormed)
    (p : h₁.seen.Perm h₂.seen) : run h₁ = run h₂ := by
  rw [run_eq_holding h₁ w₁, run_eq_holding h₂ w₂]
  congr 1
  unfold holding
  by_cases e : h₁.seen = []
  · have : h₂.seen = [] := by rw [e] at p; exact p.nil_eq.symm
    simp [e, this]
  · have e2 : h₂.seen ≠ [] := fun h => e (by rw [h] at p; exact p.eq_nil)
    simp only [e, e2, if_false]
    have s1 : ∀ j : Fin d, (h₁.seen.map fun x => x j).sum = (h₂.seen.map fun x => x j).sum := fun j => (p.map _).sum_eq
    have s2 : ∀ j : Fin d, (h₁.seen.map fun x => x j * x j).sum = (h₂.seen.map fun x => x j * x j).sum := fun j => (p.map _).sum_eq
    simp only [s1, s2, p.length_eq]

theorem clamp_fin (v lb ub : K) : clampObs (some lb) (some ub) (.fin v) = .fin (min (max v lb) ub) := by
  have h1 : Flt.max2 (.fin v) (.fin lb) = .fin (max v lb) := by
    simp only [Flt.max2, Flt.lt, decide_eq_true_eq]
    split
    · rename_i h; rw [max_eq_right h.le]
    · rename_i h; rw [max_eq_left (not_lt.1 h)]
  simp only [clampObs, Option.elim, h1, Flt.min2, Flt.lt, decide_eq_true_eq]
  split
  · rename_i h; rw [min_eq_right h.le]
  · rename_i h; rw [min_eq_left (not_lt.1 h)]

/-- **C57.** Over the reals, with the standard deviation as the square root of the variance: a normalised observation is
`(x − mean) / stdev`, with `stdev ≥ √min_variance > 0`, clipped to the bounds. -/
theorem C57_normalize (h : Spec.History ℝ d) (w : h.WellFormed) (hs : h.seen ≠ []) (minVar : ℝ) (hm : 0 < minVar) (x : Fin d → ℝ)
    (lb ub : ℝ) (stdev : Fin d → ℝ) (hstd : ∀ j, stdev j = Real.sqrt (max (Spec.variance h.seen j) minVar)) :
    ∃ s, run h = .ok s ∧ (∀ j, 0 < stdev j ∧ Real.sqrt minVar ≤ stdev j) ∧
      s.normalize stdev none none (emb x) = .ok (emb fun j => (x j - Spec.mean h.seen j) / stdev j) ∧
      s.normalize stdev (some lb) (some ub) (emb x) = .ok (emb fun j => min (max ((x j - Spec.mean h.seen j) / stdev j) lb) ub) := by
  obtain ⟨s, hr, hc, hstat⟩ := C57_running_stats_are_batch_stats h w minVar
  obtain ⟨hmean, -⟩ := hstat hs
  have hn : s.count ≠ 0 := by rw [hc]; simpa using hs
  refine ⟨s, hr, ?_, ?_, ?_⟩
  · intro j
    rw [hstd]
    exact ⟨Real.sqrt_pos.2 (lt_of_lt_of_le hm (le_max_right _ _)), Real.sqrt_le_sqrt (le_max_right _ _)⟩
  · simp only [RN.normalize, hn, if_false, hmean, Except.map]
    rfl
  · simp only [RN.normalize, hn, if_false, hmean, Except.map, clampObs, Option.elim, emb, Flt.sub, divPos]
    congr 1
    funext j
    exact clamp_fin _ _ _

example : (Spec.History.batch (.empty : Spec.History ℝ 1) [![1], ![2]]).WellFormed ∧
    (Spec.History.batch (.empty : Spec.History ℝ 1) [![1], ![2]]).seen ≠ [] ∧ (0 : ℝ) < 1 / 100 := by
  simp [Spec.History.WellFormed, Spec.History.seen]

/-- **C57.** Nothing can be normalised before anything was seen, and refused updates say so. -/
theorem C57_refusals (s : RN K d) (x : Obs K d) (rows : List (Obs K d)) (m : List Bool) (o : RN K d) (mask : Option (List Bool)) :
    (s.count = 0 → ∀ stdev lb ub, s.normalize stdev lb ub x = .error .valueError) ∧
    s.update (.single x) (some m) = .error .valueError ∧
    (m.length ≠ rows.length → s.update (.batch rows) (some m) = .error .valueError) ∧
    s.update .badBatch mask = .error .valueError ∧ s.update .badNdim mask = .error .valueError ∧
    (o.count ≠ 0 → s.merge o none false = .error .valueError ∧ s.merge o (some m) true = .error .valueError) := by
  refine ⟨?_, ?_, ?_, rfl, rfl, ?_⟩
  · intro h _ _ _; simp [RN.normalize, h]
  · simp [RN.update]
  · intro h; simp [RN.update, h]
  · intro h; simp [RN.merge, h]

/-- A history for the examples: 1 and 3 as a masked batch (with a masked-out 100), 5 by merging, then 7. -/
def exampleHistory : Spec.History ℚ 1 :=
  .single (.merge (.masked (.reset (.single .empty ![9])) [![1], ![100], ![3]] [true, false, true]) (.batch .empty [![5]])) ![7]

example : exampleHistory.WellFormed := by
  simp [exampleHistory, Spec.History.WellFormed, Spec.select]
example : exampleHistory.seen = [![1], ![3], ![5], ![7]] := by
  simp [exampleHistory, Spec.History.seen, Spec.select]
example : Spec.mean exampleHistory.seen 0 = 4 ∧ Spec.variance exampleHistory.seen 0 = 5 := by decide +kernel
example : (Spec.History.batch (.empty : Spec.History ℚ 1) [![7], ![5], ![3], ![1]]).seen.Perm exampleHistory.seen := by
  simp only [exampleHistory, Spec.History.seen, Spec.select]
  exact (List.reverse_perm [![1], ![3], ![5], (![7] : Fin 1 → ℚ)])

/-! ### Masks -/

/-- **C58** (part). A masked update of finite rows is the update with the selected rows only: same resulting state, and the same
failures, if something was seen before or something is selected. The full property also covers rows with infinities or NaN
where the mask is false, and masks with no true item given to an empty normaliser: see the `_violated` theorems. -/
theorem C58_masked_update_partial [IsStrictOrderedRing K] (h : Spec.History K d) (w : h.WellFormed) (rows : List (Fin d → K)) (m : List Bool)
    (hm : m.length = rows.length) (hu : Spec.select rows m ≠ [] ∨ h.seen ≠ []) :
    ∃ s s', run h = .ok s ∧ s.update (.batch (rows.map emb)) (some m) = .ok s' ∧
      s.update (.batch ((Spec.select rows m).map emb)) none = .ok s' ∧ s'.count = h.seen.length + m.count true := by
  refine ⟨_, _, run_eq_holding h w, update_masked_holding _ _ _ hm hu.symm, update_batch_holding _ _ hu.symm, ?_⟩
  rw [← select_sublist_count rows m hm]
  unfold holding
  split
  · rename_i e; obtain ⟨a, b⟩ := List.append_eq_nil_iff.1 e; simp [a, b, RN.empty]
  · simp

/-- **C58** (part). A mask with no true item given to a normaliser with data changes nothing. -/
theorem C58_all_false_mask_partial [IsStrictOrderedRing K] (h : Spec.History K d) (w : h.WellFormed) (hs : h.seen ≠ [])
    (rows : List (Fin d → K)) :
    ∃ s, run h = .ok s ∧ s.update (.batch (rows.map emb)) (some (List.replicate rows.length false)) = .ok s := by
  refine ⟨_, run_eq_holding h w, ?_⟩
  have e : ∀ rows : List (Fin d → K), Spec.select rows (List.replicate rows.length false) = [] := by
    intro rows; induction rows with
    | nil => rfl
    | cons r rs ih => simpa [Spec.select, List.replicate_succ] using ih
  have := update_masked_holding h.seen rows (List.replicate rows.length false) (by simp) (Or.inl hs)
  rwa [e, List.append_nil] at this

example : [true, false].length = ([![1], ![2]] : List (Fin 1 → ℚ)).length ∧ Spec.select ([![1], ![2]] : List (Fin 1 → ℚ)) [true, false] ≠ [] := by
  simp [Spec.select]

/-- **C58 violated.** A NaN in a row which is masked out still makes the mean NaN: the row is multiplied by zero, not left out. -/
theorem C58_violated_masked_nan (a : K) :
    ∃ s : RN K 1, (RN.empty : RN K 1).update (.batch [fun _ => .fin a, fun _ => .nan]) (some [true, false]) = .ok s ∧
      s.count = 1 ∧ s.mean = .ok (fun _ => .nan) := by
  refine ⟨_, rfl, rfl, ?_⟩
  simp [RN.mean, sumRows, maskRow, maskValue, addObs, Flt.add, Flt.mul, divCount]

/-- **C58 violated.** A mask with no true item (or an empty batch) given to an empty normaliser breaks it: every further update with
an observation fails with an assertion error, and normalisation with a value error. -/
theorem C58_violated_all_false_mask (rows : List (Obs K d)) :
    ∃ s : RN K d, (RN.empty : RN K d).update (.batch rows) (some (List.replicate rows.length false)) = .ok s ∧
      (∀ x, s.update (.single x) none = .error .assertionError) ∧
      (∀ rows', s.update (.batch rows') none = .error .assertionError) ∧
      (∀ rows' m, m.length = rows'.length → s.update (.batch rows') (some m) = .error .assertionError) := by
  refine ⟨{ sum := some (sumRows (List.zipWith maskRow rows (List.replicate rows.length false))), sumSq := some (sumRows ((List.zipWith maskRow rows (List.replicate rows.length false)).map sqObs)), count := 0 }, ?_, ?_, ?_, ?_⟩
  · simp [RN.update, RN.absorb, RN.hasNoData, RN.empty, List.count_replicate]
  · intro x; simp [RN.update, RN.absorb, RN.hasNoData, RN.hasData]
  · intro x; simp [RN.update, RN.absorb, RN.hasNoData, RN.hasData]
  · intro x m hm; simp [RN.update, RN.absorb, RN.hasNoData, RN.hasData, hm]

/-! ### RunningStat -/

/-- Feed observations one at a time. -/
def Stat.feed (s : Stat K d) (xs : List (Fin d → K)) : Except PyErr (Stat K d) := xs.foldlM (fun s x => s.update (emb x)) s

/-- The state of a `RunningStat` with the data of `xs`. -/
def statHolding (xs : List (Fin d → K)) : Stat K d := if xs = [] then none else some (holding xs)

theorem stat_feed : ∀ (ys xs : List (Fin d → K)), Stat.feed (statHolding xs) ys = .ok (statHolding (xs ++ ys)) := by
  intro ys
  induction ys with
  | nil => intro xs; simp [Stat.feed, pure, Except.pure]
  | cons y ys ih =>
    intro xs
    have h1 : (statHolding xs).update (emb y) = .ok (statHolding (xs ++ [y])) := by
      have e : (statHolding xs).getD RN.empty = holding xs := by
        unfold statHolding; split <;> simp_all [holding]
      have := absorb_holding xs [y] (by simp)
      simp only [List.map_cons, List.map_nil, List.sum_singleton, List.length_singleton] at this
      unfold Stat.update
      rw [e]
      simp only [RN.update, Option.isSome, Bool.false_eq_true, if_false, sqObs_emb]
      have t : (holding xs).absorb (emb y) (emb fun j => y j * y j) 1 = .ok (holding (xs ++ [y])) := this
      rw [t]
      simp [Except.map, statHolding]
    have := ih (xs ++ [y])
    unfold Stat.feed at this ⊢
    rw [List.foldlM_cons, h1]
    simpa [bind, Except.bind] using this

theorem stat_merge (xs ys : List (Fin d → K)) : (statHolding xs).merge (statHolding ys) = .ok (statHolding (xs ++ ys)) := by
  by_cases hy : ys = []
  · simp [hy, statHolding, Stat.merge, Stat.count]
  · have hl : ys.length ≠ 0 := by simpa using hy
    have e : holding ys = { sum := some (emb fun j => (ys.map fun x => x j).sum), sumSq := some (emb fun j => (ys.map fun x => x j * x j).sum), count := ys.length } := by
        simp [holding, hy]
    by_cases hx : xs = []
    · simp [hx, hy, statHolding, Stat.merge, Stat.count, e]
    · have := absorb_holding xs ys (Or.inr hy)
      simp only [statHolding, hx, hy, if_false, Stat.merge, Stat.count, Option.elim, e, hl, RN.merge, List.append_eq_nil_iff, false_and,
        Option.isSome, Bool.false_eq_true, Bool.not_true, this, Except.map]

/-- **C57.** The `RunningStat` wrapper: feeding observations one by one and merging two such objects gives the statistics of all the
observations of both. -/
theorem C57_running_stat [IsStrictOrderedRing K] (xs ys : List (Fin d → K)) :
    ∃ s t u : Stat K d, Stat.feed none xs = .ok s ∧ Stat.feed none ys = .ok t ∧ s.merge t = .ok u ∧
      Stat.count u = xs.length + ys.length ∧
      (xs ++ ys ≠ [] → ∃ rn, u = some rn ∧ rn.mean = .ok (fun j => .fin (Spec.mean (xs ++ ys) j))) := by
  have e : (none : Stat K d) = statHolding [] := rfl
  have hx := stat_feed xs []
  have hy := stat_feed ys []
  simp only [List.nil_append, ← e] at hx hy
  refine ⟨_, _, statHolding (xs ++ ys), hx, hy, stat_merge xs ys, ?_, ?_⟩
  · by_cases h : xs ++ ys = []
    · obtain ⟨a, b⟩ := List.append_eq_nil_iff.1 h; simp [statHolding, a, b, Stat.count]
    · rw [statHolding, if_neg h]; simp [Stat.count, holding, h]
  · intro h
    have hn : (xs ++ ys).length ≠ 0 := by simpa using h
    refine ⟨holding (xs ++ ys), by simp [statHolding, h], ?_⟩
    simp only [holding, h, if_false, RN.mean, Option.elim, divCount, emb, hn]
    rfl

/-! ### The caller's tensors -/

/-- What a caller does: passes a batch (whose rows it computed from its tensors in any way), or overwrites one of its tensors. -/
inductive Op (K : Type) (d : Nat) where
  | batch (rows : (Nat → Obs K d) → List (Obs K d))
  | write (a : Nat) (v : Obs K d)

/-- Perform the operations. -/
def Mem.ops (m : Mem K d) : List (Op K d) → Mem K d
  | [] => m
  | .batch f :: rest => (m.updateBatch (f m.heap)).ops rest
  | .write a v :: rest => (m.write a v).ops rest

/-- The batches passed and the tensors of the caller, if nobody but the caller writes into them. -/
def expected (heap : Nat → Obs K d) : List (Op K d) → List (List (Obs K d)) × (Nat → Obs K d)
  | [] => ([], heap)
  | .batch f :: rest => (f heap :: (expected heap rest).1, (expected heap rest).2)
  | .write a v :: rest => expected (Function.update heap a v) rest

theorem ops_own : ∀ (ops : List (Op K d)) (m : Mem K d) (w : Obs K d), m.sum = .own w →
    (m.ops ops).heap = (expected m.heap ops).2 ∧
      (m.ops ops).sumValue = some (((expected m.heap ops).1.map sumRows).foldl addObs w) := by
  intro ops
  induction ops with
  | nil => intro m w h; simp [Mem.ops, expected, Mem.sumValue, h]
  | cons o ops ih =>
    intro m w h
    cases o with
    | batch f =>
      have e : m.updateBatch (f m.heap) = { m with sum := .own (addObs w (sumRows (f m.heap))), count := m.count + (f m.heap).length } := by
        simp [Mem.updateBatch, Mem.addInPlace, h]
      have := ih (m.updateBatch (f m.heap)) (addObs w (sumRows (f m.heap))) (by rw [e])
      simp only [Mem.ops, expected, List.map_cons, List.foldl_cons]
      simpa [e] using this
    | write a v => exact ih (m.write a v) w h

/-- **C84** (part). A normaliser which starts empty and is fed batches neither writes into the caller's tensors nor is affected by
what the caller writes into them afterwards. Missing: updates with single observations, see `C84_violated`. -/
theorem C84_batches_isolated_partial (heap : Nat → Obs K d) (f : (Nat → Obs K d) → List (Obs K d)) (ops : List (Op K d)) :
    let m : Mem K d := Mem.ops { heap := heap, sum := .none, count := 0 } (.batch f :: ops)
    m.heap = (expected heap (.batch f :: ops)).2 ∧
      m.sumValue = some (((expected heap ops).1.map sumRows).foldl addObs (sumRows (f heap))) := by
  have := ops_own ops (Mem.updateBatch { heap := heap, sum := .none, count := 0 } (f heap)) (sumRows (f heap))
    (by simp [Mem.updateBatch, Mem.addInPlace])
  simpa [Mem.ops, expected, Mem.updateBatch, Mem.addInPlace] using this

/-- **C84 violated.** The first single observation is kept as the sum itself: the next update writes into the caller's tensor, and
what the caller writes into it afterwards becomes the sum. -/
theorem C84_violated (heap : Nat → Obs K d) (a b : Nat) (hab : a ≠ b) (v : Obs K d) :
    let m : Mem K d := { heap := heap, sum := .none, count := 0 }
    ((m.updateSingle a).updateSingle b).heap a = addObs (heap a) (heap b) ∧
      ((m.updateSingle a).write a v).sumValue = some v := by
  have hba := hab.symm
  simp [Mem.updateSingle, Mem.addInPlace, Mem.write, Mem.sumValue]

example : ∃ (heap : Nat → Obs ℚ 1) (a b : Nat), a ≠ b ∧ addObs (heap a) (heap b) ≠ heap a :=
  ⟨fun n _ => .fin n, 0, 1, by decide, fun h => by have := congrFun h 0; simp [addObs, Flt.add] at this⟩

end EvoTorch.RunningNorm
