import Verif.Model.PopReport
import Verif.Props.Selection
import Mathlib.Algebra.Order.Ring.Rat
import Mathlib.Tactic.Positivity
import Mathlib.Algebra.Order.BigOperators.Group.List
import Std.Data.String.ToNat
/-!
C102: the status items about the population.
-/
namespace EvoTorch.PopReport
open EvoTorch.BestWorst (Sense Args argbest ArgSpec)
open EvoTorch.Selection
variable {K : Type}

/-! ### Names -/

/-- The four names of the documentation. -/
def documented : List String := ["pop_best", "pop_best_eval", "mean_eval", "median_eval"]

theorem names_eq (exclude : List String) : (reportables.filter fun r => !exclude.contains r) = documented.filter (fun r => r ∉ exclude) := by
  simp [reportables, documented]

/-- Keys with a prefix determine the objective. -/
theorem key_inj (i j : Nat) (r s : String) (h : "obj" ++ toString i ++ "_" ++ r = "obj" ++ toString j ++ "_" ++ s) : i = j ∧ r = s := by
  have hl := congrArg String.toList h
  simp only [String.toList_append] at hl
  rw [List.append_assoc, List.append_assoc, List.append_assoc, List.append_assoc] at hl
  have hl2 := List.append_cancel_left hl
  have hd : ∀ (n : Nat), ∀ c ∈ (toString n).toList, c ≠ '_' := by
    intro n c hc heq
    subst heq
    have : (toString n) = String.ofList (Nat.toDigits 10 n) := rfl
    rw [this, String.toList_ofList] at hc
    have := Nat.isDigit_of_mem_toDigits (b := 10) (by omega) (by omega) hc
    revert this; decide
  have key : ∀ (a b u v : List Char), (∀ c ∈ a, c ≠ '_') → (∀ c ∈ b, c ≠ '_') → a ++ '_' :: u = b ++ '_' :: v → a = b ∧ u = v := by
    intro a
    induction a with
    | nil =>
      intro b u v _ hb h
      cases b with
      | nil => simpa using h
      | cons x b => simp at h; exact absurd h.1.symm (hb x List.mem_cons_self)
    | cons x a ih =>
      intro b u v ha hb h
      cases b with
      | nil => simp at h; exact absurd h.1 (ha x List.mem_cons_self)
      | cons y b =>
        simp only [List.cons_append, List.cons.injEq] at h
        obtain ⟨rfl, h⟩ := h
        obtain ⟨h1, h2⟩ := ih b u v (fun c hc => ha c (List.mem_cons_of_mem _ hc)) (fun c hc => hb c (List.mem_cons_of_mem _ hc)) h
        exact ⟨by rw [h1], h2⟩
  obtain ⟨h1, h2⟩ := key _ _ _ _ (hd i) (hd j) hl2
  have h3 : toString i = toString j := String.toList_injective h1
  exact ⟨Nat.repr_injective h3, String.toList_injective h2⟩

/-- **C102 (names).** With an objective index, or with one objective, the items are the documented ones without the excluded names. Otherwise there is, for every objective
`i`, an item `obj<i>_<name>` for each documented name which is not excluded, about that objective. All keys differ. Nothing is registered if reporting is disabled. -/
theorem C102_names_partial (objIndex : Option Nat) (numObjs : Nat) (exclude : List String) :
    registered objIndex numObjs (some (.names exclude)) false = [] ∧
    (∀ j, objIndex = some j ∨ (objIndex = none ∧ numObjs = 1 ∧ j = 0) →
      registered objIndex numObjs (some (.names exclude)) true = (documented.filter (fun r => r ∉ exclude)).map fun r => ⟨r, j, r⟩) ∧
    (objIndex = none → numObjs ≠ 1 → ∀ it, it ∈ registered objIndex numObjs (some (.names exclude)) true ↔
      it.obj < numObjs ∧ it.what ∈ documented ∧ it.what ∉ exclude ∧ it.key = "obj" ++ toString it.obj ++ "_" ++ it.what) ∧
    (∀ enable, ((registered objIndex numObjs (some (.names exclude)) enable).map Item.key).Nodup) := by
  have hnd : (documented.filter (fun r => r ∉ exclude)).Nodup := List.Nodup.sublist List.filter_sublist (by decide)
  have h2 : ∀ j, objIndex = some j ∨ (objIndex = none ∧ numObjs = 1 ∧ j = 0) →
      registered objIndex numObjs (some (.names exclude)) true = (documented.filter (fun r => r ∉ exclude)).map fun r => ⟨r, j, r⟩ := by
    rintro j (rfl | ⟨rfl, rfl, rfl⟩) <;> simp only [registered, excludeSet, names_eq] <;> rfl
  have h3 : objIndex = none → numObjs ≠ 1 → registered objIndex numObjs (some (.names exclude)) true =
      (List.range numObjs).flatMap fun i => (documented.filter (fun r => r ∉ exclude)).map fun r => ⟨"obj" ++ toString i ++ "_" ++ r, i, r⟩ := by
    rintro rfl hn
    simp only [registered, excludeSet, names_eq, if_neg hn]; rfl
  refine ⟨rfl, h2, ?_, ?_⟩
  · intro h hn it
    rw [h3 h hn]
    simp only [List.mem_flatMap, List.mem_range, List.mem_map, List.mem_filter, decide_eq_true_eq]
    constructor
    · rintro ⟨i, hi, r, ⟨hr, he⟩, rfl⟩; exact ⟨hi, hr, he, rfl⟩
    · rintro ⟨h1, h2, h3, h4⟩; exact ⟨it.obj, h1, it.what, ⟨h2, h3⟩, by cases it; simp_all⟩
  · intro enable
    cases enable with
    | false => simp [registered]
    | true =>
      cases hobj : objIndex with
      | some j => rw [← hobj, h2 j (Or.inl hobj), List.map_map]; exact hnd.map_on (fun a _ b _ hab => hab)
      | none =>
        by_cases hn : numObjs = 1
        · rw [← hobj, h2 0 (Or.inr ⟨hobj, hn, rfl⟩), List.map_map]; exact hnd.map_on (fun a _ b _ hab => hab)
        · rw [← hobj, h3 hobj hn]
          rw [List.map_flatMap]
          refine List.nodup_flatMap.2 ⟨fun i _ => ?_, ?_⟩
          · rw [List.map_map]
            refine List.Nodup.map_on (fun a _ b _ hab => (key_inj _ _ _ _ hab).2) hnd
          · refine List.Pairwise.imp ?_ (List.nodup_range (n := numObjs))
            intro a b hab
            simp only [Function.onFun, List.disjoint_left, List.mem_map]
            rintro k ⟨x, ⟨r, _, rfl⟩, rfl⟩ ⟨y, ⟨s, _, rfl⟩, hy⟩
            exact hab (key_inj _ _ _ _ hy).1.symm

/-- **C102 violated.** `exclude` given as a string (as `GaussianSearchAlgorithm` does with "mean_eval", `algorithms/distributed/gaussian.py:178`) excludes nothing, whatever
the string. -/
theorem C102_violated_exclude_string (objIndex : Option Nat) (numObjs : Nat) (s : String) (enable : Bool) :
    registered objIndex numObjs (some (.str s)) enable = registered objIndex numObjs none enable := by
  have h : (reportables.filter fun r => !(excludeSet (some (.str s))).contains r) = reportables.filter fun r => !(excludeSet none).contains r := by
    refine List.filter_congr fun r hr => ?_
    have hlen : r.toList.length ≠ 1 := by revert r; decide
    have hnot : r ∉ excludeSet (some (.str s)) := by
      simp only [excludeSet, List.mem_map]
      rintro ⟨c, _, rfl⟩
      simp at hlen
    have : ((excludeSet (some (.str s))).contains r) = false := by simpa using hnot
    rw [this]
    simp [excludeSet]
  simp only [registered, h]

/-! ### Values -/

section values
variable [Field K] [LinearOrder K] [IsStrictOrderedRing K]

theorem column_fin (E : List (List K)) (j : Nat) (hj : ∀ row ∈ E, j < row.length) : column (E.map (·.map Flt.fin)) j = (E.map fun row => row.getD j 0).map Flt.fin := by
  simp only [column, List.map_map]
  refine List.map_congr_left fun row hr => ?_
  have := hj row hr
  simp [List.getD_eq_getElem?_getD, this]

omit [LinearOrder K] [IsStrictOrderedRing K] in
theorem foldl_add_fin (l : List K) : ∀ a : K, (l.map Flt.fin).foldl Flt.add (.fin a) = .fin (a + l.sum) := by
  induction l with
  | nil => intro a; simp
  | cons x l ih => intro a; simp only [List.map_cons, List.foldl_cons, Flt.add, ih, List.sum_cons]; congr 1; ring

theorem sum_le_length (l : List K) (b : K) (h : ∀ x ∈ l, x ≤ b) : l.sum ≤ l.length * b := by
  induction l with
  | nil => simp
  | cons x l ih =>
    have h1 := h x List.mem_cons_self
    have h2 := ih fun y hy => h y (List.mem_cons_of_mem _ hy)
    simp only [List.sum_cons, List.length_cons, Nat.cast_add, Nat.cast_one]
    linarith

theorem length_le_sum (l : List K) (b : K) (h : ∀ x ∈ l, b ≤ x) : l.length * b ≤ l.sum := by
  induction l with
  | nil => simp
  | cons x l ih =>
    have h1 := h x List.mem_cons_self
    have h2 := ih fun y hy => h y (List.mem_cons_of_mem _ hy)
    simp only [List.sum_cons, List.length_cons, Nat.cast_add, Nat.cast_one]
    linarith

/-- **C102 (values).** A non-empty population, all of whose solutions are evaluated (`E`: one row per solution, one column per objective). For every objective `j`:
the best solution is a solution of the population, and no solution is better; its reported evaluation is that of this solution; the mean is the sum divided by the number,
and lies between any bounds of the evaluations; at least half of the evaluations are at most the median, at least half are at least the median, and the median is one of them. -/
theorem C102_values (A : Args K) (hA : ArgSpec A) (senses : List Sense) (objIndex : Option Nat) (E : List (List K)) (hne : E ≠ [])
    (hE : ∀ row ∈ E, senses.length ≤ row.length) (j : Nat) (s : Sense) (hs : senses[j]? = some s)
    (hobj : objIndex = some j ∨ objIndex = none) :
    (∃ row ∈ E, popBest A senses (E.map (·.map Flt.fin)) j = some (row.map Flt.fin) ∧
      (∀ other ∈ E, NotWorse s (row.getD j 0) (other.getD j 0)) ∧
      popBestEval A senses (registered objIndex senses.length none true) (E.map (·.map Flt.fin)) j = some (.fin (row.getD j 0))) ∧
    (∃ mean, meanEval (E.map (·.map Flt.fin)) j = .fin mean ∧ mean * E.length = (E.map fun row => row.getD j 0).sum ∧
      (∀ b, (∀ row ∈ E, row.getD j 0 ≤ b) → mean ≤ b) ∧ (∀ b, (∀ row ∈ E, b ≤ row.getD j 0) → b ≤ mean)) ∧
    (∃ med, medianEval (E.map (·.map Flt.fin)) j = some (.fin med) ∧ med ∈ E.map (fun row => row.getD j 0) ∧
      E.length ≤ 2 * (E.map fun row => row.getD j 0).countP (fun x => decide (x ≤ med)) ∧
      E.length ≤ 2 * (E.map fun row => row.getD j 0).countP (fun x => decide (med ≤ x))) := by
  have hjs : j < senses.length := (List.getElem?_eq_some_iff.1 hs).1
  have hj : ∀ row ∈ E, j < row.length := fun row hr => Nat.lt_of_lt_of_le hjs (hE row hr)
  have hcol := column_fin E j hj
  refine ⟨?_, ?_, ?_⟩
  · obtain ⟨x, hx, hbest⟩ := (C15_argbest_argworst hA s (E.map fun row => row.getD j 0) (by simpa using hne)).1
    rw [List.getElem?_map, Option.map_eq_some_iff] at hx
    obtain ⟨row, hrow, rfl⟩ := hx
    have hpb : popBest A senses (E.map (·.map Flt.fin)) j = some (row.map Flt.fin) := by
      simp only [popBest, hs, Option.bind_some, hcol, List.getElem?_map, hrow, Option.map_some]
    refine ⟨row, List.mem_of_getElem? hrow, hpb, fun other ho => hbest _ (List.mem_map_of_mem ho), ?_⟩
    have hitem : ∃ it : Item, it.obj = j ∧ ((registered objIndex senses.length none true).find? fun i => i.key = "pop_best").or
        ((registered objIndex senses.length none true).find? fun i => i.key = "obj" ++ toString j ++ "_pop_best") = some it := by
      have hno : ∀ (i : Nat) (r : String), ("obj" ++ toString i ++ "_" ++ r = "pop_best") → False := by
        intro i r h
        have := congrArg String.toList h
        simp only [String.toList_append] at this
        simp at this
      rcases hobj with rfl | rfl
      · exact ⟨⟨"pop_best", j, "pop_best"⟩, rfl, by simp [registered, reportables, excludeSet]⟩
      · by_cases hn : senses.length = 1
        · have : j = 0 := by omega
          subst this
          exact ⟨⟨"pop_best", 0, "pop_best"⟩, rfl, by simp [registered, reportables, excludeSet, hn]⟩
        · have hreg : registered none senses.length none true = (List.range senses.length).flatMap fun i => reportables.map fun r => ⟨"obj" ++ toString i ++ "_" ++ r, i, r⟩ := by
            simp [registered, hn, excludeSet]
          have h1 : (registered none senses.length none true).find? (fun i => i.key = "pop_best") = none := by
            rw [hreg, List.find?_eq_none]
            intro it hit
            simp only [List.mem_flatMap, List.mem_map] at hit
            obtain ⟨i, _, r, _, rfl⟩ := hit
            simp only [decide_eq_true_eq]
            exact hno i r
          rw [h1]
          have h2 : ((registered none senses.length none true).find? fun i => i.key = "obj" ++ toString j ++ "_pop_best").isSome := by
            rw [hreg, List.find?_isSome]
            refine ⟨⟨"obj" ++ toString j ++ "_" ++ "pop_best", j, "pop_best"⟩, ?_, ?_⟩
            · simp only [List.mem_flatMap, List.mem_range, List.mem_map]
              exact ⟨j, hjs, "pop_best", by simp [reportables], rfl⟩
            · simp [String.append_assoc]
          obtain ⟨it, hit⟩ := Option.isSome_iff_exists.1 h2
          refine ⟨it, ?_, by rw [hit]; rfl⟩
          have hk := List.find?_some hit
          have hm := List.mem_of_find?_eq_some hit
          rw [hreg] at hm
          simp only [List.mem_flatMap, List.mem_map] at hm
          obtain ⟨i, _, r, _, rfl⟩ := hm
          simp only [decide_eq_true_eq] at hk
          have : "obj" ++ toString j ++ "_pop_best" = "obj" ++ toString j ++ "_" ++ "pop_best" := by
            rw [String.append_assoc (s₁ := "obj" ++ toString j)]; rfl
          rw [this] at hk
          exact (key_inj _ _ _ _ hk).1
    obtain ⟨it, hitj, hit⟩ := hitem
    have hrl := hj row (List.mem_of_getElem? hrow)
    simp only [popBestEval, hit, Option.bind_some, hitj, hpb]
    rw [if_pos]
    · simp [List.getElem?_eq_getElem hrl, List.getD_eq_getElem?_getD]
    · simp only [List.all_eq_true]
      intro x hx
      have := List.mem_of_mem_take hx
      simp only [List.mem_map] at this
      obtain ⟨y, _, rfl⟩ := this
      rfl
  · have hpos : (0 : K) < E.length := by
      have : 0 < E.length := List.length_pos_iff.2 hne
      exact_mod_cast this
    refine ⟨(E.map fun row => row.getD j 0).sum / E.length, ?_, ?_, ?_, ?_⟩
    · simp only [meanEval, hcol, foldl_add_fin, zero_add, divNat, List.length_map]
    · rw [div_mul_cancel₀ _ hpos.ne']
    · intro b hb
      rw [div_le_iff₀ hpos]
      have := sum_le_length (E.map fun row => row.getD j 0) b (by simpa using hb)
      rw [List.length_map] at this
      linarith
    · intro b hb
      rw [le_div_iff₀ hpos]
      have := length_le_sum (E.map fun row => row.getD j 0) b (by simpa using hb)
      rw [List.length_map] at this
      linarith
  · generalize hc : (E.map fun row => row.getD j 0) = c at *
    have hcl : c.length = E.length := by rw [← hc]; simp
    have hpos : 0 < c.length := by rw [hcl]; exact List.length_pos_iff.2 hne
    let le : K → K → Bool := fun a b => decide (a ≤ b)
    have hsort : (c.map Flt.fin).mergeSort Flt.le = (c.mergeSort le).map Flt.fin := by
      rw [List.map_mergeSort (s := Flt.le) (f := Flt.fin)]
      intro a _ b _
      rfl
    let sorted := c.mergeSort le
    have hlen : sorted.length = c.length := List.length_mergeSort _
    have hpw : sorted.Pairwise (fun a b => a ≤ b) := by
      have := List.pairwise_mergeSort (le := le) (by intro a b c; simp only [le, decide_eq_true_eq]; exact le_trans) (by intro a b; simp only [le, Bool.or_eq_true, decide_eq_true_eq]; exact le_total a b) c
      refine this.imp ?_
      intro a b h
      simpa [le] using h
    have hperm : sorted.Perm c := List.mergeSort_perm c le
    let k := (c.length - 1) / 2
    have hk : k < sorted.length := by rw [hlen]; simp only [k]; omega
    refine ⟨sorted[k], ?_, hperm.mem_iff.1 (List.getElem_mem hk), ?_, ?_⟩
    · simp only [medianEval, hcol]
      rw [if_neg (by simp [Flt.isNan]), hsort, List.length_map, List.getElem?_map]
      show Option.map Flt.fin sorted[k]? = _
      rw [List.getElem?_eq_getElem hk]; rfl
    · rw [← hcl, ← hperm.countP_eq]
      have hsplit : ∀ p : K → Bool, sorted.countP p = (sorted.take (k + 1)).countP p + (sorted.drop (k + 1)).countP p := fun p => by
        rw [← List.countP_append, List.take_append_drop]
      rw [hsplit]
      have : (sorted.take (k + 1)).countP (fun x => decide (x ≤ sorted[k])) = (sorted.take (k + 1)).length := by
        rw [List.countP_eq_length]
        intro x hx
        obtain ⟨i, hi, rfl⟩ := List.mem_iff_getElem.1 hx
        rw [List.length_take] at hi
        simp only [List.getElem_take, decide_eq_true_eq]
        rcases Nat.lt_or_ge i k with h | h
        · exact List.pairwise_iff_getElem.1 hpw i k (by omega) hk h
        · have : i = k := by omega
          subst this; exact le_refl _
      rw [this, List.length_take]
      simp only [k] at *
      omega
    · rw [← hcl, ← hperm.countP_eq]
      have hsplit : ∀ p : K → Bool, sorted.countP p = (sorted.take k).countP p + (sorted.drop k).countP p := fun p => by
        rw [← List.countP_append, List.take_append_drop]
      rw [hsplit]
      have : (sorted.drop k).countP (fun x => decide (sorted[k] ≤ x)) = (sorted.drop k).length := by
        rw [List.countP_eq_length]
        intro x hx
        obtain ⟨i, hi, rfl⟩ := List.mem_iff_getElem.1 hx
        rw [List.length_drop] at hi
        simp only [List.getElem_drop, decide_eq_true_eq]
        rcases Nat.eq_zero_or_pos i with h | h
        · subst h; exact le_refl _
        · exact List.pairwise_iff_getElem.1 hpw k (k + i) hk (by omega) (by omega)
      rw [this, List.length_drop]
      simp only [k] at *
      omega

end values

/-- **C102 violated.** Excluding "pop_best" makes "pop_best_eval" None for every population, although it is not excluded. -/
theorem C102_violated_excluding_pop_best (A : Args K) (senses : List Sense) (j : Nat) (evals : List (List (Flt K))) :
    (⟨"pop_best_eval", j, "pop_best_eval"⟩ : Item) ∈ registered (some j) senses.length (some (.names ["pop_best"])) true ∧
    popBestEval A senses (registered (some j) senses.length (some (.names ["pop_best"])) true) evals j = none := by
  have hreg : registered (some j) senses.length (some (.names ["pop_best"])) true =
      [⟨"pop_best_eval", j, "pop_best_eval"⟩, ⟨"mean_eval", j, "mean_eval"⟩, ⟨"median_eval", j, "median_eval"⟩] := by
    simp [registered, reportables, excludeSet]
  rw [hreg]
  refine ⟨by simp, ?_⟩
  have hno : ∀ (r : String), r.toList.head? ≠ some 'o' → ¬ r = "obj" ++ toString j ++ "_pop_best" := by
    intro r hr h
    rw [h] at hr
    simp only [String.toList_append] at hr
    exact hr rfl
  have h1 := hno "pop_best_eval" (by decide)
  have h2 := hno "mean_eval" (by decide)
  have h3 := hno "median_eval" (by decide)
  simp only [popBestEval, List.find?_cons, List.find?_nil, h1, h2, h3, decide_false]
  simp

/-! ### Non-vacuity -/

/-- Two objectives; the second one is maximised. -/
def exampleEvals : List (List ℚ) := [[3, 10], [1, 20], [2, 60], [5, 30]]

example : registered (some 1) 2 none true = [⟨"pop_best", 1, "pop_best"⟩, ⟨"pop_best_eval", 1, "pop_best_eval"⟩, ⟨"mean_eval", 1, "mean_eval"⟩, ⟨"median_eval", 1, "median_eval"⟩] := by
  decide +kernel
example : (registered none 2 (some (.names ["mean_eval", "median_eval", "pop_best"])) true).map Item.key = ["obj0_pop_best_eval", "obj1_pop_best_eval"] := by decide +kernel
example : (registered (some 0) 1 (some (.str "mean_eval")) true).map Item.key = documented := by decide +kernel
example : meanEval (exampleEvals.map (·.map Flt.fin)) 1 = .fin 30 := by
  simp only [meanEval, column, exampleEvals, List.map_cons, List.map_nil, List.foldl_cons, List.foldl_nil, List.getD_cons_succ, List.getD_cons_zero, Flt.add, divNat,
    List.length_cons, List.length_nil]
  norm_num
example : medianEval (exampleEvals.map (·.map Flt.fin)) 1 = some (.fin 20) := by
  simp [medianEval, column, exampleEvals, Flt.isNan, List.mergeSort, List.MergeSort.Internal.splitInTwo, List.merge, Flt.le]
  norm_num [List.cons_merge_cons, Flt.le]
example : ∀ row ∈ exampleEvals, [Sense.min, Sense.max].length ≤ row.length := by decide

end EvoTorch.PopReport
