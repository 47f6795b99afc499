import Verif.Model.SolutionObject
import Mathlib.Data.List.Nodup
import Mathlib.Tactic.Linarith
/-!
C122: a solution is a live handle of one row of its batch, and a clone is independent.
-/
namespace EvoTorch.SolutionObject
open EvoTorch

variable {V E : Type}

/-- Row `k` of a batch, as it is now. -/
def rowOf (m : Mem V E) (b : Batch) (k : ℕ) : Option (Cell V E) := b.rows[k]?.map m.cell

/-- A batch in memory: different rows are at different addresses, all allocated, and every row has the right shape. -/
structure Sound (m : Mem V E) (b : Batch) : Prop where
  nodup : b.rows.Nodup
  allocated : ∀ a ∈ b.rows, a < m.next
  vals : ∀ a ∈ b.rows, (m.cell a).vals.length = b.length
  ev : ∀ a ∈ b.rows, (m.cell a).ev.length = b.numObjs + b.numData

/-! ### Handles -/

theorem solution_rows {b s : Batch} {k : ℕ} (hk : k < b.rows.length) {i : Int} (hi : i = k ∨ i = (k : Int) - b.rows.length) (h : solution b i = .ok s) : s = { b with rows := [b.rows[k]] } := by
  unfold solution at h
  have hj : (if i < 0 then (b.rows.length : Int) + i else i) = k := by split <;> omega
  simp only [hj] at h
  rw [if_neg (by omega)] at h
  cases h
  congr 1
  rw [Int.toNat_natCast, List.drop_eq_getElem_cons hk]
  rfl

/-- Solution `k` of a batch can be had by `k` or by counting from the end. It shows row `k`, whatever has happened to the memory in between. -/
theorem C122_handle (b : Batch) (k : ℕ) (hk : k < b.rows.length) (i : Int) (hi : i = k ∨ i = (k : Int) - b.rows.length) :
    ∃ s, solution b i = .ok s ∧ ∀ m : Mem V E, ∃ c, rowOf m b k = some c ∧ values m s = .ok c.vals ∧ evals m s = .ok c.ev ∧ items m s = .ok c.vals ∧
      (isEvaluated m s = .ok true ↔ ∀ x ∈ c.ev.take b.numObjs, x ≠ none) := by
  have hj : (if i < 0 then (b.rows.length : Int) + i else i) = k := by split <;> omega
  have hs : ∃ s, solution b i = .ok s := by
    unfold solution
    simp only [hj]
    rw [if_neg (by omega)]
    exact ⟨_, rfl⟩
  obtain ⟨s, hs⟩ := hs
  refine ⟨s, hs, fun m => ⟨m.cell b.rows[k], by simp [rowOf, hk], ?_⟩⟩
  have := solution_rows hk hi hs
  subst this
  refine ⟨rfl, rfl, rfl, ?_⟩
  show Except.ok _ = Except.ok true ↔ _
  rw [Except.ok.injEq, List.all_eq_true]
  refine forall₂_congr fun x _ => ?_
  cases x <;> simp

example : solution ⟨[7, 5, 3], 0, 1, 0, 2⟩ (-1) = .ok ⟨[3], 0, 1, 0, 2⟩ ∧ solution ⟨[7, 5, 3], 0, 1, 0, 2⟩ 0 = .ok ⟨[7], 0, 1, 0, 2⟩ := by decide

/-- Other indices are refused. -/
theorem C122_bad_index (b : Batch) (i : Int) (h : i < -(b.rows.length : Int) ∨ (b.rows.length : Int) < i) : solution b i = .error .indexError := by
  unfold solution
  by_cases hi : i < 0
  · simp only [hi, if_true]
    rw [if_pos (by omega)]
  · simp only [hi, if_false]
    rw [if_pos (by omega)]

/-- The index right behind the last row is not refused. The result reads as an IndexError; setting its decision values succeeds, has no effect, and says nothing. -/
theorem C122_violated_end (b : Batch) : ∃ s, solution b b.rows.length = .ok s ∧ (∀ m : Mem V E, values m s = .error .indexError) ∧
    ∀ (m : Mem V E) (x : V), (setValues m s (.scalar x)).result = .ok () ∧ (setValues m s (.scalar x)).state.cell = m.cell := by
  refine ⟨{ b with rows := [] }, ?_, fun m => rfl, fun m x => ⟨rfl, ?_⟩⟩
  · unfold solution
    have : ¬ ((b.rows.length : Int) < 0) := by omega
    simp only [this, if_false]
    rw [if_neg (by omega)]
    simp
  · funext a
    simp [setValues, flatten, broadcast, write, Except.bind]

/-! ### Decision values -/

/-- Setting the decision values of a solution with as many numbers as it has (two or more, or one for one): they are in the row of the parent, the evaluations are cleared, and no
other row of any batch changes. -/
theorem C122_set_values (m : Mem V E) (b s : Batch) (k : ℕ) (hk : k < b.rows.length) (hs : solution b k = .ok s) (given : Given V) (ws : List V) (hg : given = .vector ws ∨ given = .higher ws) (hw : ws.length = b.length) (h0 : 0 < b.length) :
    (setValues m s given).result = .ok () ∧ rowOf (setValues m s given).state b k = some ⟨ws, List.replicate (b.numObjs + b.numData) none⟩ ∧
    values (setValues m s given).state s = .ok ws ∧ (0 < b.numObjs → isEvaluated (setValues m s given).state s = .ok false) ∧
    ∀ a, a ≠ b.rows[k] → (setValues m s given).state.cell a = m.cell a := by
  have := solution_rows hk (.inl rfl) hs
  subst this
  have hf : flatten given = .ok ws := by
    cases ws with
    | nil => simp at hw; omega
    | cons x xs => rcases hg with h | h <;> subst h <;> rfl
  have hb : broadcast b.length ws = .ok ws := by
    unfold broadcast
    match ws, hw with
    | [x], hw => simp only; congr 1; rw [← hw]; rfl
    | [], hw => simp at hw; omega
    | x :: y :: t, hw => simp only; rw [if_pos hw]
  have e : setValues m { b with rows := [b.rows[k]] } given = ⟨write m [b.rows[k]] fun _ => ⟨ws, List.replicate (b.numObjs + b.numData) none⟩, .ok ()⟩ := by
    unfold setValues
    simp only [hf, Except.bind, hb]
  rw [e]
  refine ⟨rfl, by simp [rowOf, hk, write], by simp [values, row, write, Except.map], fun hn => ?_, fun a ha => by simp [write, ha]⟩
  obtain ⟨n, hn⟩ : ∃ n, b.numObjs = n + 1 := ⟨b.numObjs - 1, by omega⟩
  simp [isEvaluated, evals, row, write, Except.map, hn, List.replicate_succ, Nat.add_right_comm]

example : (setValues (V := Int) (E := Int) ⟨fun _ => ⟨[1, 2], [some 5]⟩, 9⟩ ⟨[7], 0, 1, 0, 2⟩ (.vector [3, 4])).result = .ok () := by decide

/-- A single number is accepted for a solution of any length, and all decision values become this number. -/
theorem C122_violated_scalar (m : Mem V E) (b s : Batch) (k : ℕ) (hk : k < b.rows.length) (hs : solution b k = .ok s) (x : V) (given : Given V) (hg : given = .scalar x ∨ given = .vector [x] ∨ given = .higher [x]) :
    (setValues m s given).result = .ok () ∧ values (setValues m s given).state s = .ok (List.replicate b.length x) := by
  have := solution_rows hk (.inl rfl) hs
  subst this
  rcases hg with h | h | h <;> subst h <;> exact ⟨rfl, by simp [setValues, flatten, broadcast, values, row, write, Except.map, Except.bind]⟩

/-- Any other number of values is refused, and nothing changes: neither values nor evaluations. -/
theorem C122_refused_values (m : Mem V E) (s : Batch) (given : Given V) (ws : List V) (hg : given = .vector ws ∨ given = .higher ws) (hw : ws.length ≠ s.length) (h1 : ws.length ≠ 1) :
    setValues m s given = ⟨m, .error .runtimeError⟩ := by
  have : (flatten given).bind (broadcast s.length) = .error .runtimeError := by
    match ws, hg, hw, h1 with
    | [], hg, _, _ => rcases hg with h | h <;> subst h <;> rfl
    | [x], _, _, h1 => exact absurd rfl h1
    | x :: y :: t, hg, hw, _ =>
      rcases hg with h | h <;> subst h <;> (show broadcast s.length (x :: y :: t) = _; unfold broadcast; simp only; rw [if_neg hw])
  unfold setValues
  rw [this]

/-! ### Evaluations -/

/-- The numbers of a scalar or a sequence. -/
def numbers {X : Type} : Given X → List X
  | .scalar x => [x]
  | .vector xs => xs
  | .higher xs => xs

/-- Setting the evaluations: one number for each objective leaves the extra data NaN; with extra data, or with one number for each column, these are stored. The decision values
and all other rows stay. -/
theorem C122_set_evals (m : Mem V E) (b s : Batch) (k : ℕ) (hk : k < b.rows.length) (hs : solution b k = .ok s) (xs ds : List (Option E)) (h0 : 0 < b.numObjs) (given : Given (Option E)) (hg : given = .vector xs ∨ ∃ x, xs = [x] ∧ given = .scalar x)
    (data : Option (Given (Option E)))
    (hcase : (xs.length = b.numObjs ∧ data = none ∧ ds = List.replicate b.numData none) ∨ (xs.length = b.numObjs ∧ data = some (.vector ds) ∧ ds.length = b.numData ∧ 0 < b.numData) ∨
      (xs.length = b.numObjs + b.numData ∧ 0 < b.numData ∧ data = none ∧ ds = [])) :
    (setEvals m s given data).result = .ok () ∧ (∃ c, rowOf m b k = some c ∧ rowOf (setEvals m s given data).state b k = some { c with ev := xs ++ ds }) ∧
    evals (setEvals m s given data).state s = .ok (xs ++ ds) ∧
    ∀ a, a ≠ b.rows[k] → (setEvals m s given data).state.cell a = m.cell a := by
  have := solution_rows hk (.inl rfl) hs
  subst this
  have hx : xs ≠ [] := by rintro rfl; simp at hcase; omega
  have hf : flatten given = .ok xs := by
    rcases hg with h | ⟨x, h1, h2⟩
    · subst h
      cases xs with
      | nil => exact absurd rfl hx
      | cons _ _ => rfl
    · subst h1 h2; rfl
  have hne : ∀ ys, given ≠ .higher ys := by
    intro ys h
    rcases hg with h2 | ⟨x, _, h2⟩ <;> rw [h2] at h <;> cases h
  have he : evalRow { b with rows := [b.rows[k]] } given data = .ok (xs ++ ds) := by
    unfold evalRow
    split
    · rename_i ys
      exact absurd rfl (hne ys)
    · simp only [hf]
      rcases hcase with ⟨h1, h2, h3⟩ | ⟨h1, h2, h3, h4⟩ | ⟨h1, h2, h3, h4⟩
      · subst h2 h3; simp [h1]
      · subst h2
        cases ds with
        | nil => simp at h3; omega
        | cons d ds => simp only [flatten]; simp [h3, h1]
      · subst h3 h4; simp [h1]
  have e : setEvals m { b with rows := [b.rows[k]] } given data = ⟨write m [b.rows[k]] fun c => { c with ev := xs ++ ds }, .ok ()⟩ := by
    unfold setEvals
    rw [he]
  rw [e]
  refine ⟨rfl, ⟨m.cell b.rows[k], by simp [rowOf, hk], by simp [rowOf, hk, write]⟩, by simp [evals, row, write, Except.map], fun a ha => by simp [write, ha]⟩

/-- Whatever else is given is refused, and nothing changes. -/
theorem C122_refused_evals (m : Mem V E) (s : Batch) (given : Given (Option E)) (data : Option (Given (Option E)))
    (h : (∃ xs, given = .higher xs) ∨ (data = none ∧ (numbers given).length ≠ s.numObjs ∧ (numbers given).length ≠ s.numObjs + s.numData) ∨
      (∃ d, data = some d ∧ ((numbers given).length ≠ s.numObjs ∨ (numbers d).length ≠ s.numData ∨ ∀ ds, d ≠ .vector ds))) :
    (setEvals m s given data).state = m ∧ ∃ e, (setEvals m s given data).result = .error e := by
  have : ∃ e, evalRow s given data = .error e := by
    have hnum : ∀ {X : Type} (g : Given X) (l : List X), flatten g = .ok l → l = numbers g := by
      intro X g l hl
      match g with
      | .scalar _ => cases hl; rfl
      | .vector [] => cases hl
      | .vector (_ :: _) => cases hl; rfl
      | .higher [] => cases hl
      | .higher (_ :: _) => cases hl; rfl
    unfold evalRow
    split
    · exact ⟨_, rfl⟩
    · rename_i hne
      cases hf : flatten given with
      | error e => exact ⟨e, rfl⟩
      | ok l =>
        have hl := hnum _ _ hf
        subst hl
        rcases h with ⟨xs, h⟩ | ⟨h1, h2, h3⟩ | ⟨d, h1, h2⟩
        · exact absurd h (hne xs)
        · subst h1
          simp only
          split_ifs <;> first | exact ⟨_, rfl⟩ | contradiction
        · subst h1
          simp only
          match d, h2 with
          | .scalar _, _ => exact ⟨_, rfl⟩
          | .higher _, _ => exact ⟨_, rfl⟩
          | .vector ds, h2 =>
            simp only
            cases hd : flatten (Given.vector ds) with
            | error e => exact ⟨e, rfl⟩
            | ok l =>
              have hl := hnum _ _ hd
              subst hl
              simp only
              split_ifs with a1 a2 a3
              · exact ⟨_, rfl⟩
              · exact ⟨_, rfl⟩
              · exact ⟨_, rfl⟩
              · rcases h2 with h2 | h2 | h2
                · exact absurd h2 a3
                · exact absurd h2 a2
                · exact absurd rfl (h2 _)
  obtain ⟨e, he⟩ := this
  unfold setEvals
  rw [he]
  exact ⟨rfl, e, rfl⟩

/-- The `evaluation` read back is a number exactly if the problem has one objective and no extra data. -/
theorem C122_evaluation (m : Mem V E) (b s : Batch) (k : ℕ) (hk : k < b.rows.length) (hs : solution b k = .ok s) (hb : Sound m b) :
    ∃ g, evaluation m s = .ok g ∧ evals m s = .ok (numbers g) ∧ ((∃ x, g = .scalar x) ↔ b.numObjs + b.numData = 1) := by
  have := solution_rows hk (.inl rfl) hs
  subst this
  have hl := hb.ev b.rows[k] (List.getElem_mem hk)
  unfold evaluation evals row
  simp only [Except.map]
  generalize (m.cell b.rows[k]).ev = r at hl
  match r, hl with
  | [], hl => exact ⟨.vector [], rfl, rfl, by simp at hl ⊢; omega⟩
  | [x], hl => exact ⟨.scalar x, rfl, rfl, by simp at hl ⊢; omega⟩
  | x :: y :: t, hl => exact ⟨.vector (x :: y :: t), rfl, rfl, by simp at hl ⊢; omega⟩

/-! ### Histories -/

theorem exec_frame (m : Mem V E) (s : Batch) (op : Op V E) (a : ℕ) (ha : a ∉ s.rows) : (exec m s op).cell a = m.cell a := by
  cases op with
  | setValues g =>
    simp only [exec, setValues]
    split
    · rfl
    · simp [write, ha]
  | setEvals g d =>
    simp only [exec, setEvals]
    split
    · rfl
    · simp [write, ha]
  | access keep =>
    cases keep
    · simp [exec, accessValues, write, ha]
    · rfl
  | read => rfl

theorem run_frame (m : Mem V E) (a : ℕ) : ∀ (ops : List (Batch × Op V E)), (∀ x ∈ ops, a ∉ x.1.rows) → (run m ops).cell a = m.cell a
  | [], _ => rfl
  | (s, op) :: rest, h => by
    rw [run, run_frame (exec m s op) a rest fun x hx => h x (List.mem_cons_of_mem _ hx), exec_frame m s op a (h (s, op) List.mem_cons_self)]

/-- Solutions of different rows do not interfere: whatever is done with the others, in any order and with any failures, row `k` and solution `k` stay as they are. -/
theorem C122_other_solutions (m : Mem V E) (b : Batch) (hb : b.rows.Nodup) (k : ℕ) (hk : k < b.rows.length) (s : Batch) (hs : solution b k = .ok s) (ops : List (Batch × Op V E))
    (hops : ∀ x ∈ ops, ∃ j, ∃ _ : j < b.rows.length, j ≠ k ∧ solution b j = .ok x.1) :
    rowOf (run m ops) b k = rowOf m b k ∧ values (run m ops) s = values m s ∧ evals (run m ops) s = evals m s := by
  have := solution_rows hk (.inl rfl) hs
  subst this
  have hf : (run m ops).cell b.rows[k] = m.cell b.rows[k] := by
    refine run_frame m _ ops fun x hx => ?_
    obtain ⟨j, hj, hjk, hsol⟩ := hops x hx
    rw [solution_rows hj (.inl rfl) hsol]
    simp only [List.mem_singleton]
    intro he
    exact hjk ((List.Nodup.getElem_inj_iff hb).1 he).symm
  refine ⟨by simp [rowOf, hk, hf], ?_, ?_⟩ <;> simp [values, evals, row, Except.map, hf]

example : ∃ (b s : Batch), b.rows.Nodup ∧ b.rows.length = 3 ∧ solution b 2 = .ok s ∧ solution b 0 ≠ .ok s := ⟨⟨[7, 5, 3], 0, 1, 0, 2⟩, ⟨[3], 0, 1, 0, 2⟩, by decide⟩

/-! ### Copies -/

theorem copy_fresh (m : Mem V E) (s : Batch) (dev : ℕ) : ∀ a ∈ (copyTo m s dev).2.rows, m.next ≤ a := by
  intro a ha
  simp only [copyTo, List.mem_map, List.mem_range] at ha
  obtain ⟨i, _, rfl⟩ := ha
  omega

theorem copy_frame (m : Mem V E) (s : Batch) (dev : ℕ) (a : ℕ) (ha : a < m.next) : (copyTo m s dev).1.cell a = m.cell a := by
  simp [copyTo, Nat.not_le.2 ha]

/-- A clone shows the same values and evaluations, and nothing done to it changes anything that existed before; nothing done to what existed before changes the clone. -/
theorem C122_clone (m : Mem V E) (s : Batch) (hs : Sound m s) (ops : List (Op V E)) :
    values (clone m s).1 (clone m s).2 = values m s ∧ evals (clone m s).1 (clone m s).2 = evals m s ∧
    (∀ a, a < m.next → (run (clone m s).1 (ops.map fun op => ((clone m s).2, op))).cell a = m.cell a) ∧
    (∀ others : List (Batch × Op V E), (∀ x ∈ others, ∀ a ∈ x.1.rows, a < m.next) →
      values (run (clone m s).1 others) (clone m s).2 = values m s ∧ evals (run (clone m s).1 others) (clone m s).2 = evals m s) := by
  have hread : ∀ m' : Mem V E, (∀ a ∈ (clone m s).2.rows, m'.cell a = (clone m s).1.cell a) → values m' (clone m s).2 = values m s ∧ evals m' (clone m s).2 = evals m s := by
    intro m' hm
    unfold clone copyTo at hm ⊢
    cases h : s.rows with
    | nil => simp [values, evals, row, h, Except.map]
    | cons a t =>
      simp only [h, List.mem_map, List.mem_range] at hm
      have := hm m.next ⟨0, by simp, rfl⟩
      simp [values, evals, row, h, Except.map, List.range_succ_eq_map, this]
  refine ⟨(hread _ fun _ _ => rfl).1, (hread _ fun _ _ => rfl).2, fun a ha => ?_, fun others ho => ?_⟩
  · rw [run_frame]
    · exact copy_frame m s s.device a ha
    · intro x hx h
      simp only [List.mem_map] at hx
      obtain ⟨op, _, rfl⟩ := hx
      have := copy_fresh m s s.device a h
      omega
  · refine hread _ fun a ha => ?_
    refine run_frame _ _ others fun x hx h => ?_
    have := ho x hx a h
    have := copy_fresh m s s.device a ha
    omega

/-- `to(device)` gives a handle of the same row on the device of the solution, and an independent copy elsewhere. -/
theorem C122_to (m : Mem V E) (b s : Batch) (k : ℕ) (hk : k < b.rows.length) (hs : solution b k = .ok s) (dev : ℕ) :
    ∃ t, (moveTo m s dev).2 = .ok t ∧ t.device = dev ∧ values (moveTo m s dev).1 t = values m s ∧ evals (moveTo m s dev).1 t = evals m s ∧
      (dev = s.device → t.rows = s.rows ∧ (moveTo m s dev).1 = m) ∧ (dev ≠ s.device → (∀ a ∈ t.rows, m.next ≤ a) ∧ ∀ a, a < m.next → (moveTo m s dev).1.cell a = m.cell a) := by
  have := solution_rows hk (.inl rfl) hs
  subst this
  by_cases h : dev = b.device
  · subst h
    refine ⟨{ b with rows := [b.rows[k]] }, by simp [moveTo, solution], rfl, by simp [moveTo], by simp [moveTo], fun _ => ⟨rfl, by simp [moveTo]⟩, fun hne => absurd rfl hne⟩
  · refine ⟨{ b with rows := [m.next], device := dev }, by simp [moveTo, h, solution, copyTo], rfl, ?_, ?_, fun he => absurd he h, fun _ => ⟨by simp, fun a ha => by simp [moveTo, h, copyTo, Nat.not_le.2 ha]⟩⟩
    · simp [moveTo, h, copyTo, values, row, Except.map]
    · simp [moveTo, h, copyTo, evals, row, Except.map]

/-- `to_batch()` shares the row: what is written through the batch is read through the solution. -/
theorem C122_to_batch (b s : Batch) (k : ℕ) (hk : k < b.rows.length) (hs : solution b k = .ok s) : (toBatch s).rows = [b.rows[k]] ∧ solution (toBatch s) 0 = .ok s := by
  have := solution_rows hk (.inl rfl) hs
  subst this
  exact ⟨rfl, by simp [toBatch, solution]⟩

/-! ### Mutable access -/

/-- `access_values()` clears the evaluations at once; with `keep_evals=True` they are kept. -/
theorem C122_access (m : Mem V E) (b s : Batch) (k : ℕ) (hk : k < b.rows.length) (hs : solution b k = .ok s) (keep : Bool) :
    (accessValues m s keep).result = .ok b.rows[k] ∧ values (accessValues m s keep).state s = values m s ∧
    evals (accessValues m s keep).state s = (if keep then evals m s else .ok (List.replicate (b.numObjs + b.numData) none)) ∧
    ∀ a, a ≠ b.rows[k] → (accessValues m s keep).state.cell a = m.cell a := by
  have := solution_rows hk (.inl rfl) hs
  subst this
  cases keep
  · refine ⟨rfl, ?_, ?_, fun a ha => ?_⟩ <;> simp [accessValues, values, evals, row, write, Except.map]
    intro h
    exact absurd h ha
  · exact ⟨rfl, rfl, rfl, fun _ _ => rfl⟩

/-- The tensor obtained by `access_values()` stays a mutable view. Writing to it after a later evaluation changes the decision values and leaves the solution evaluated. -/
theorem C122_violated_stale : ∃ (m : Mem Int Int) (s : Batch) (a : ℕ), Sound m s ∧ (accessValues m s false).result = .ok a ∧
    let m1 := (accessValues m s false).state
    let m2 := (setEvals m1 s (.scalar (some 10)) none).state
    let m3 := poke m2 a fun c => { c with vals := [99] }
    values m3 s = .ok [99] ∧ isEvaluated m3 s = .ok true ∧ evals m3 s = .ok [some 10] := by
  refine ⟨⟨fun _ => ⟨[1], [some 1]⟩, 1⟩, ⟨[0], 0, 1, 0, 1⟩, 0, ⟨by decide, by decide, by decide, by decide⟩, rfl, ?_⟩
  decide

end EvoTorch.SolutionObject
