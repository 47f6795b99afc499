import Verif.Model.BatchAccess
import Mathlib.Tactic.Linarith
import Mathlib.Algebra.Order.Field.Rat
/-!
C96: a batch is a sequence of solutions. C97: utilities. C98: callable evaluators. C99: batches created like another.
-/
namespace EvoTorch.BatchAccess
open EvoTorch

/-! ### C96 -/

/-- Python's indexing: negative indices count from the end, others than `-n ≤ i < n` raise an IndexError. -/
def pyIndex {α : Type} (rows : List α) (i : Int) : Except PyErr α :=
  if 0 ≤ i then item rows i.toNat
  else if 0 ≤ (rows.length : Int) + i then item rows ((rows.length : Int) + i).toNat
  else .error .indexError

theorem item_lt {α : Type} (l : List α) (j : ℕ) (h : j < l.length) : item l j = .ok l[j] := by simp [item, h]
theorem item_ge {α : Type} (l : List α) (j : ℕ) (h : l.length ≤ j) : item l j = .error .indexError := by simp [item, h]

theorem read_solution {α : Type} (rows : List α) (j : ℕ) : read ((rows.drop j).take 1) = item rows j := by
  unfold read item
  have : ((rows.drop j).take 1)[0]? = rows[j]? := by
    rw [List.getElem?_take]; simp
  rw [this]

/-- **C96 (indexing, partial).** For every batch and every index except the length of the batch, creating the solution and reading it gives what Python's indexing of a list
gives, and an invalid index raises an IndexError already when the solution is created. Missing: the index equal to the length, see `C96_violated_one_past_the_end`. -/
theorem C96_index_partial {α : Type} (rows : List α) (i : Int) (h : i ≠ rows.length) :
    (do read (← solution rows i)) = pyIndex rows i ∧ (pyIndex rows i = .error .indexError → solution rows i = .error .indexError) := by
  simp only [solution, pyIndex]
  by_cases h0 : 0 ≤ i
  · have h1 : ¬ i < 0 := by omega
    simp only [h0, h1, if_true, if_false]
    by_cases h2 : i ≤ rows.length
    · have h3 : i.toNat < rows.length := by omega
      simp only [h0, h2, and_self, ge_iff_le, not_true, if_false]
      refine ⟨?_, ?_⟩
      · show read _ = _
        rw [read_solution]
      · rw [item_lt _ _ h3]; intro h'; cases h'
    · have h3 : rows.length ≤ i.toNat := by omega
      simp [h2, item_ge _ _ h3, bind, Except.bind]
  · have h1 : i < 0 := by omega
    simp only [h0, h1, if_true, if_false]
    by_cases h2 : 0 ≤ (rows.length : Int) + i
    · have h3 : ((rows.length : Int) + i).toNat < rows.length := by omega
      have h4 : (rows.length : Int) + i ≤ rows.length := by omega
      simp only [h2, h4, and_self, ge_iff_le, not_true, if_false, if_true]
      refine ⟨?_, ?_⟩
      · show read _ = _
        rw [read_solution]
      · rw [item_lt _ _ h3]; intro h'; cases h'
    · simp [h2, bind, Except.bind]

/-- **C96 (iteration).** Iterating over a batch gives its solutions, each once and in order. -/
theorem C96_iteration {α : Type} (rows : List α) : iterate rows = .ok (rows.map fun x => [x]) := by
  have key : ∀ n ≤ rows.length, (List.range n).mapM (fun (i : ℕ) => solution rows (i : Int)) = .ok ((rows.take n).map fun x => [x]) := by
    intro n
    induction n with
    | zero => intro _; rfl
    | succ n ih =>
      intro hn
      have hs : solution rows (n : Int) = .ok [rows[n]] := by
        simp only [solution]
        rw [if_neg (by omega : ¬ (n : Int) < 0), if_neg (by omega)]
        rw [Int.toNat_natCast, List.drop_eq_getElem_cons (by omega)]
        rfl
      rw [List.range_succ, List.mapM_append, ih (by omega)]
      simp only [List.mapM_cons, List.mapM_nil, hs, bind, Except.bind, pure, Except.pure]
      rw [List.take_succ_eq_append_getElem (by omega), List.map_append]
      rfl
  rw [iterate, key rows.length (Nat.le_refl _), List.take_length]

/-- **C96 violated.** `batch[len(batch)]` raises no error: it gives a solution with no row, which only fails when it is read. In particular `batch[0]` of an empty batch
is accepted. -/
theorem C96_violated_one_past_the_end {α : Type} (rows : List α) :
    solution rows rows.length = .ok [] ∧ pyIndex rows rows.length = .error .indexError ∧ read ([] : List α) = .error .indexError := by
  refine ⟨?_, ?_, rfl⟩
  · simp only [solution]
    rw [if_neg (by omega : ¬ (rows.length : Int) < 0), if_neg (by omega)]
    simp
  · simp [pyIndex, item_ge]

example : (do read (← solution [10, 20, 30] (-1))) = .ok 30 := by rfl
example : solution [10, 20, 30] (-4) = .error .indexError := by rfl

/-! ### C97 -/

section
variable {K : Type} [Field K] [LinearOrder K] [IsStrictOrderedRing K]

/-- The evaluation `x` is better than `y`: smaller for "min", larger for "max". -/
def Better (descending : Bool) (x y : Flt K) : Prop := if descending then Flt.lt y x = true else Flt.lt x y = true

theorem signed_lt (d : Bool) (x y : Flt K) : Flt.lt (signed d y) (signed d x) = true ↔ Better d x y := by
  cases d
  · cases x <;> cases y <;> simp [signed, Better, Flt.neg, Flt.lt]
  · simp [signed, Better]

theorem mapM_col (evals : List (List (Flt K))) (j : ℕ) (h : ∀ row ∈ evals, j < row.length) :
    (evals.mapM fun row => item row j) = .ok (evals.map fun row => row.getD j .nan) := by
  induction evals with
  | nil => rfl
  | cons row rest ih =>
    have hr := h row List.mem_cons_self
    rw [List.mapM_cons, ih fun r hr => h r (List.mem_cons_of_mem _ hr)]
    simp [item_lt _ _ hr, List.getElem?_eq_getElem hr, List.getD_eq_getElem?_getD, bind, Except.bind, pure, Except.pure]

/-- The value of `utilityOf` for objective `j`. -/
theorem utilityOf_eq (descending : List Bool) (evals : List (List (Flt K))) (ranker) (check : Bool) (j : ℕ) (hj : j < descending.length) (hw : ∀ row ∈ evals, descending.length ≤ row.length) :
    utilityOf descending evals ranker check (j : Int) =
      if check = true ∧ (∃ row ∈ evals, row.getD j .nan = .nan) then .error .valueError
      else .ok (match ranker with
        | none => evals.map fun row => signed descending[j] (row.getD j .nan)
        | some r => r descending[j] (evals.map fun row => row.getD j .nan)) := by
  have h1 : normObj descending.length (j : Int) = .ok j := by
    simp only [normObj]
    rw [if_neg (by omega : ¬ (j : Int) < 0), if_neg (by omega)]
    rfl
  unfold utilityOf
  simp only [h1, bind, Except.bind, mapM_col evals j fun row hr => Nat.lt_of_lt_of_le hj (hw row hr), List.getElem?_eq_getElem hj]
  have hany : ((evals.map fun row => row.getD j .nan).any Flt.isNan) = true ↔ ∃ row ∈ evals, row.getD j Flt.nan = .nan := by
    simp only [List.any_map, List.any_eq_true, Function.comp]
    constructor
    · rintro ⟨row, hr, hx⟩
      refine ⟨row, hr, ?_⟩
      revert hx; cases row.getD j Flt.nan <;> simp [Flt.isNan]
    · rintro ⟨row, hr, hx⟩; exact ⟨row, hr, by rw [hx]; rfl⟩
  have hcond : (check && (evals.map fun row => row.getD j .nan).any Flt.isNan) = true ↔ check = true ∧ ∃ row ∈ evals, row.getD j Flt.nan = .nan := by
    rw [Bool.and_eq_true, hany]
  by_cases hc : check = true ∧ ∃ row ∈ evals, row.getD j Flt.nan = .nan
  · rw [if_pos hc, if_pos (hcond.2 hc)]
  · rw [if_neg hc, if_neg fun h => hc (hcond.1 h)]
    cases ranker <;> simp [pure, Except.pure]

/-- **C97 (higher is better).** If all solutions are evaluated, the utilities for an objective order the solutions by quality: one has a higher utility than another exactly
when its evaluation is better in the sense of the objective (infinities included). -/
theorem C97_higher_is_better (descending : List Bool) (evals : List (List (Flt K))) (j : ℕ) (hj : j < descending.length) (hw : ∀ row ∈ evals, descending.length ≤ row.length)
    (hev : ∀ row ∈ evals, row.getD j .nan ≠ .nan) :
    ∃ u, utilityOf descending evals none true (j : Int) = .ok u ∧ u.length = evals.length ∧
      ∀ a b (ha : a < u.length) (hb : b < u.length) (ha' : a < evals.length) (hb' : b < evals.length),
        Flt.lt u[b] u[a] = true ↔ Better descending[j] (evals[a].getD j .nan) (evals[b].getD j .nan) := by
  refine ⟨_, by rw [utilityOf_eq descending evals none true j hj hw, if_neg]; rintro ⟨_, row, hr, hx⟩; exact hev row hr hx, by simp, fun a b ha hb ha' hb' => ?_⟩
  simp only [List.getElem_map]
  exact signed_lt _ _ _

/-- **C97 (unevaluated solutions).** With `check_nans`, utilities are refused with a ValueError exactly when some solution has no evaluation for that objective; otherwise the
evaluations of the objective, and its sense, are what a given ranking method receives. -/
theorem C97_checks_and_ranking (descending : List Bool) (evals : List (List (Flt K))) (ranker : Bool → List (Flt K) → List (Flt K)) (j : ℕ) (hj : j < descending.length)
    (hw : ∀ row ∈ evals, descending.length ≤ row.length) :
    ((∃ row ∈ evals, row.getD j .nan = .nan) → ∀ r, utilityOf descending evals r true (j : Int) = .error .valueError) ∧
    ((∀ row ∈ evals, row.getD j .nan ≠ .nan) → utilityOf descending evals (some ranker) true (j : Int) = .ok (ranker descending[j] (evals.map fun row => row.getD j .nan))) := by
  refine ⟨fun h r => ?_, fun h => ?_⟩
  · rw [utilityOf_eq descending evals r true j hj hw, if_pos ⟨rfl, h⟩]
  · rw [utilityOf_eq descending evals _ true j hj hw, if_neg]
    rintro ⟨_, row, hr, hx⟩; exact h row hr hx

theorem filterMap_map_get {α : Type} (cols : List (List α)) (i : ℕ) (h : ∀ c ∈ cols, i < c.length) : (cols.filterMap fun c => c[i]?).length = cols.length ∧
    ∀ (k : ℕ) (hk : k < cols.length), (cols.filterMap fun c => c[i]?)[k]? = cols[k][i]? := by
  induction cols with
  | nil => simp
  | cons c rest ih =>
    have hc := h c List.mem_cons_self
    obtain ⟨h1, h2⟩ := ih fun c hc => h c (List.mem_cons_of_mem _ hc)
    have he : (List.filterMap (fun c => c[i]?) (c :: rest)) = c[i] :: rest.filterMap fun c => c[i]? := by
      rw [List.filterMap_cons, List.getElem?_eq_getElem hc]
    rw [he]
    refine ⟨by simp [h1], fun k hk => ?_⟩
    cases k with
    | zero => simp [List.getElem?_eq_getElem hc]
    | succ k => simpa using h2 k (by simpa using hk)

/-- **C97 (all objectives).** For evaluated solutions, `utils` gives a matrix with one row per solution and one column per objective, whose entry is the utility of that
solution for that objective, also for a single objective. -/
theorem C97_all_objectives (descending : List Bool) (evals : List (List (Flt K))) (hw : ∀ row ∈ evals, descending.length ≤ row.length)
    (hev : ∀ row ∈ evals, ∀ j < descending.length, row.getD j .nan ≠ .nan) :
    ∃ u, utils descending evals none true = .ok u ∧ u.length = evals.length ∧
      ∀ i (hi : i < u.length) (hi' : i < evals.length), u[i].length = descending.length ∧
        ∀ j (hj : j < descending.length), u[i][j]? = some (signed descending[j] (evals[i].getD j .nan)) := by
  have hu : ∀ j, ∀ hj : j < descending.length, utilityOf descending evals none true (j : Int) = .ok (evals.map fun row => signed descending[j] (row.getD j .nan)) := by
    intro j hj
    rw [utilityOf_eq descending evals none true j hj hw, if_neg]
    rintro ⟨_, row, hr, hx⟩; exact hev row hr j hj hx
  by_cases h1 : descending.length = 1
  · have h0 : 0 < descending.length := by omega
    have hu0 := hu 0 h0
    simp only [Nat.cast_zero, Int.natCast_zero] at hu0
    refine ⟨(evals.map fun row => signed descending[0] (row.getD 0 .nan)).map fun a => [a], ?_, by simp, fun i hi hi' => ?_⟩
    · simp [utils, utility, h1, hu0, bind, Except.bind, pure, Except.pure]
    · refine ⟨by simp [h1], fun j hj => ?_⟩
      obtain rfl : j = 0 := by omega
      simp
  · have hm : ∀ n ≤ descending.length, ((List.range n).mapM fun (j : ℕ) => utilityOf descending evals none true (j : Int)) =
        .ok ((List.range n).map fun j => evals.map fun row => signed (descending.getD j true) (row.getD j .nan)) := by
      intro n
      induction n with
      | zero => intro _; rfl
      | succ n ih =>
        intro hn
        rw [List.range_succ, List.mapM_append, ih (by omega)]
        simp only [List.mapM_cons, List.mapM_nil, hu n (by omega), bind, Except.bind, pure, Except.pure, List.map_append, List.map_cons, List.map_nil]
        rw [List.getD_eq_getElem?_getD, List.getElem?_eq_getElem (by omega : n < descending.length)]
        rfl
    refine ⟨transpose evals.length ((List.range descending.length).map fun j => evals.map fun row => signed (descending.getD j true) (row.getD j .nan)), ?_, by simp [transpose], fun i hi hi' => ?_⟩
    · simp only [utils, utility, if_neg h1, hm _ (Nat.le_refl _), bind, Except.bind, pure, Except.pure]
    · have hcol : ∀ c ∈ (List.range descending.length).map fun j => evals.map fun row => signed (descending.getD j true) (row.getD j .nan), i < c.length := by
        intro c hc
        simp only [List.mem_map] at hc
        obtain ⟨j, _, rfl⟩ := hc
        simpa using hi'
      obtain ⟨h2, h3⟩ := filterMap_map_get _ i hcol
      simp only [transpose, List.getElem_map, List.getElem_range]
      refine ⟨by rw [h2]; simp, fun j hj => ?_⟩
      rw [h3 j (by simpa using hj)]
      simp [hi', List.getD_eq_getElem?_getD, List.getElem?_eq_getElem hj]

end

example : utilityOf [false, true] [[.fin 3, .fin 1], [.ninf, .fin 2], [.fin (-1), .pinf]] none true 0 = .ok [.fin (-3 : ℚ), .pinf, .fin 1] := by rfl
example : utilityOf [false, true] [[.fin (3 : ℚ), .fin 1], [.fin 0, .nan]] none true 1 = .error .valueError := by rfl

/-! ### C98 -/

/-- The number of elements of a shape. -/
def numel (shape : List ℕ) : ℕ := shape.prod

/-- The position of an index in row-major order. -/
def offset : List ℕ → List ℕ → ℕ
  | _ :: ss, i :: is => i * numel ss + offset ss is
  | _, _ => 0

/-- The index is valid for the shape. -/
def ValidIndex : List ℕ → List ℕ → Prop
  | s :: ss, i :: is => i < s ∧ ValidIndex ss is
  | [], [] => True
  | _, _ => False

/-- The element of a tensor at an index. -/
def Tensor.get? {α : Type} (t : Tensor α) (idx : List ℕ) : Option α := t.data[offset t.shape idx]?

theorem offset_lt : ∀ (shape idx : List ℕ), ValidIndex shape idx → offset shape idx < numel shape
  | [], [], _ => by simp [offset, numel]
  | s :: ss, i :: is, h => by
    have h1 := offset_lt ss is h.2
    have h2 : (i + 1) * numel ss ≤ s * numel ss := Nat.mul_le_mul_right _ h.1
    simp only [offset, numel, List.prod_cons] at *
    rw [Nat.add_mul] at h2
    omega
  | [], _ :: _, h => h.elim
  | _ :: _, [], h => h.elim

theorem offset_snoc : ∀ (shape idx : List ℕ), ValidIndex shape idx → ∀ (L j : ℕ), offset (shape ++ [L]) (idx ++ [j]) = offset shape idx * L + j
  | [], [], _, L, j => by simp [offset, numel]
  | s :: ss, i :: is, h, L, j => by
    have := offset_snoc ss is h.2 L j
    simp only [List.cons_append, offset, this, numel, List.prod_append, List.prod_cons, List.prod_nil, Nat.mul_one, Nat.add_mul]
    rw [Nat.mul_assoc, Nat.add_assoc]
  | [], _ :: _, h, _, _ => h.elim
  | _ :: _, [], h, _, _ => h.elim

/-- The solution at a batch index: the vector along the last dimension. -/
def Tensor.row {α : Type} (t : Tensor α) (length : ℕ) (idx : List ℕ) : List α := (List.range length).filterMap fun j => t.get? (idx ++ [j])

theorem drop_take_eq {α : Type} (data : List α) (k L : ℕ) (h : (k + 1) * L ≤ data.length) : (List.range L).filterMap (fun j => data[k * L + j]?) = (data.drop (k * L)).take L := by
  have hl : k * L + L ≤ data.length := by rw [Nat.add_mul] at h; omega
  have : ∀ n ≤ L, (List.range n).filterMap (fun j => data[k * L + j]?) = (data.drop (k * L)).take n := by
    intro n
    induction n with
    | zero => intro _; simp
    | succ n ih =>
      intro hn
      rw [List.range_succ, List.filterMap_append, ih (by omega), List.take_succ_eq_append_getElem (by simp; omega)]
      have : k * L + n < data.length := by omega
      simp [this]
  exact this L (Nat.le_refl _)

/-- **C98.** For every tensor of solutions with any number of leftmost batch dimensions, the evaluator returns a tensor with these dimensions, whose element at every index is the
chosen objective of the solution at that index. -/
theorem C98_evaluates_every_solution {α β : Type} (fitness : List α → List β) (obj : ℕ) (hobj : ∀ row, obj < (fitness row).length) (batchShape : List ℕ) (length : ℕ) (hL : length ≠ 0)
    (data : List α) (hdata : data.length = numel batchShape * length) :
    ∃ out : Tensor β, call fitness obj ⟨batchShape ++ [length], data⟩ = .ok out ∧ out.shape = batchShape ∧ out.data.length = numel batchShape ∧
      ∀ idx, ValidIndex batchShape idx → out.get? idx = some ((fitness (Tensor.row ⟨batchShape ++ [length], data⟩ length idx))[obj]'(hobj _)) := by
  have hcount : data.length / length = numel batchShape := by rw [hdata]; exact Nat.mul_div_cancel _ (Nat.pos_of_ne_zero hL)
  have hm : ∀ rows : List (List α), (rows.mapM fun row => item (fitness row) obj) =
      .ok (rows.map fun row => (fitness row)[obj]'(hobj row)) := by
    intro rows
    induction rows with
    | nil => rfl
    | cons r rest ih => rw [List.mapM_cons, ih]; simp [item_lt _ _ (hobj r), bind, Except.bind, pure, Except.pure]
  refine ⟨⟨batchShape, (rowsOf length (numel batchShape) data).map fun row => (fitness row)[obj]'(hobj row)⟩, ?_, rfl, by simp [rowsOf], fun idx hidx => ?_⟩
  · simp [call, hL, hcount, hm, bind, Except.bind, pure, Except.pure]
  · have ho := offset_lt batchShape idx hidx
    have hle : (offset batchShape idx + 1) * length ≤ data.length := by rw [hdata]; exact Nat.mul_le_mul_right _ ho
    have hrow : Tensor.row ⟨batchShape ++ [length], data⟩ length idx = (data.drop (offset batchShape idx * length)).take length := by
      rw [← drop_take_eq data _ length hle]
      simp only [Tensor.row, Tensor.get?, offset_snoc batchShape idx hidx]
    simp only [Tensor.get?, rowsOf, List.map_map]
    rw [List.getElem?_map, List.getElem?_range ho]
    simp only [Option.map_some, Function.comp, hrow]

/-- **C98 (refusals).** A scalar is refused; so are evaluators for non-numeric problems, for differing dtypes, and for an objective index which is out of range or, with several
objectives, missing. -/
theorem C98_refusals {α β : Type} (fitness : List α → List β) (obj numObjs : ℕ) (data : List α) :
    call fitness obj ⟨[], data⟩ = .error .valueError ∧
    (∀ oi j, makeEvaluator numObjs true true oi = .ok j ↔ (oi = none ∧ numObjs = 1 ∧ j = 0) ∨ ∃ i, oi = some i ∧ (i = j ∨ i = (j : Int) - numObjs) ∧ j < numObjs) ∧
    (∀ oi num same, (num = false ∨ same = false) → ∀ j, makeEvaluator numObjs num same oi ≠ .ok j) := by
  refine ⟨rfl, fun oi j => ?_, fun oi num same h j hj => ?_⟩
  · cases oi with
    | none =>
      by_cases h1 : numObjs = 1 <;> simp [makeEvaluator, normProblemObj, h1, bind, Except.bind, pure, Except.pure, eq_comm]
    | some i =>
      simp only [makeEvaluator, normProblemObj, bind, Except.bind, pure, Except.pure]
      by_cases hi : i < 0
      · by_cases hr : (numObjs : Int) + i < 0
        · simp [hi, hr]; omega
        · have : ¬ ((numObjs : Int) + i < 0 ∨ (numObjs : Int) + i ≥ numObjs) := by omega
          rw [if_pos hi, if_neg this]
          simp
          omega
      · by_cases hr : i ≥ numObjs
        · have : i < 0 ∨ i ≥ numObjs := Or.inr hr
          simp [hi, hr]; omega
        · have : ¬ (i < 0 ∨ i ≥ numObjs) := by omega
          rw [if_neg hi, if_neg this]
          simp
          omega
  · unfold makeEvaluator at hj
    cases hn : normProblemObj numObjs oi with
    | error e => simp [hn, bind, Except.bind] at hj
    | ok k => cases num <;> cases same <;> simp [hn, bind, Except.bind] at h hj

example : call (fun r : List ℕ => [r.sum, 0]) 0 ⟨[2, 2, 3], [1, 2, 3, 4, 5, 6, 7, 8, 9, 10, 11, 12]⟩ = .ok ⟨[2, 2], [6, 15, 24, 33]⟩ := by decide

/-! ### C99 -/

/-- **C99 (partial).** An *empty* batch created like another has the requested number of solutions (by default that of the other), is unevaluated, and has the width and the senses of
the other. Missing: batches filled by the problem, see `C99_violated_filled`. -/
theorem C99_like_empty_partial {α K : Type} (other : Layout α K) (popsize : Option ℕ) :
    ∃ b, like other popsize (some true) = .ok b ∧ b.descending = other.descending ∧ b.values.length = popsize.getD other.values.length ∧
      b.evals.length = popsize.getD other.values.length ∧ ∀ row ∈ b.evals, row.length = (other.evals.headD []).length ∧ ∀ x ∈ row, x = .nan := by
  refine ⟨_, rfl, rfl, by simp, by simp, fun row hr => ?_⟩
  obtain rfl := List.eq_of_mem_replicate hr
  exact ⟨by simp, fun x hx => List.eq_of_mem_replicate hx⟩

/-- **C99 violated.** Unless it is asked to be empty, a batch cannot be created like another at all: the constructor calls a method which does not exist. -/
theorem C99_violated_filled {α K : Type} (other : Layout α K) (popsize : Option ℕ) (empty : Option Bool) (h : empty = none ∨ empty = some false) :
    like other popsize empty = .error .attributeError := by
  rcases h with rfl | rfl <;> rfl

example : like (α := ℕ) (K := ℚ) ⟨[some 1, some 2], [[.fin 3], [.fin 4]], [true]⟩ (some 3) (some true) = .ok ⟨[none, none, none], [[.nan], [.nan], [.nan]], [true]⟩ := by rfl

end EvoTorch.BatchAccess
