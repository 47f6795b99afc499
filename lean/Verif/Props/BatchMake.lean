import Verif.Model.BatchMake
import Verif.Props.Workload
import Mathlib.Data.List.Forall2
import Mathlib.Tactic.ByContra
/-!
C139: slicing, taking, merging and splitting batches give the chosen solutions, with their evaluations.
-/
namespace EvoTorch.BatchMake
open EvoTorch

variable {V E α β : Type}

/-! ### Specification -/

/-- A batch in order: as many rows of values as of evaluation data, full rows, and a column for every objective. -/
structure Wf (b : Batch V E) : Prop where
  len : b.data.rows.length = b.evdata.rows.length
  dataWidth : ∀ row ∈ b.data.rows, row.length = b.data.width
  evWidth : ∀ row ∈ b.evdata.rows, row.length = b.evdata.width
  objs : b.descending.length ≤ b.evdata.width

/-- Batch `r` has the rows `ks` of batch `b`, in this order: the same values with the same evaluations. -/
structure Selects (b r : Batch V E) (ks : List ℕ) : Prop where
  inRange : ∀ k ∈ ks, k < b.data.rows.length
  data : ∀ j : ℕ, r.data.rows[j]? = ks[j]?.bind fun k => b.data.rows[k]?
  evdata : ∀ j : ℕ, r.evdata.rows[j]? = ks[j]?.bind fun k => b.evdata.rows[k]?
  dataWidth : r.data.width = b.data.width
  evWidth : r.evdata.width = b.evdata.width
  senses : r.descending = b.descending

/-! ### Selections -/

theorem pickRows_get (rows : List α) (ks : List ℕ) (h : ∀ k ∈ ks, k < rows.length) (j : ℕ) : (pickRows rows ks)[j]? = ks[j]?.bind fun k => rows[k]? := by
  induction ks generalizing j with
  | nil => simp [pickRows]
  | cons k ks ih =>
    have hk := h k (by simp)
    have : pickRows rows (k :: ks) = rows[k] :: pickRows rows ks := by
      unfold pickRows
      rw [List.filterMap_cons_some (List.getElem?_eq_getElem hk)]
    rw [this]
    cases j with
    | zero => simp [List.getElem?_eq_getElem hk]
    | succ j => simpa using ih (fun k' hk' => h k' (by simp [hk'])) j

theorem selects_of (b : Batch V E) (hb : Wf b) (ks : List ℕ) (h : ∀ k ∈ ks, k < b.data.rows.length) :
    Selects b ⟨{ b.data with rows := pickRows b.data.rows ks }, { b.evdata with rows := pickRows b.evdata.rows ks }, b.descending⟩ ks :=
  ⟨h, fun j => pickRows_get _ _ h j, fun j => pickRows_get _ _ (fun k hk => hb.len ▸ h k hk) j, rfl, rfl, rfl⟩

theorem selects_length {b r : Batch V E} {ks : List ℕ} (hb : Wf b) (h : Selects b r ks) : r.data.rows.length = ks.length ∧ r.evdata.rows.length = ks.length := by
  have key : ∀ {α : Type} (rows out : List α), (∀ k ∈ ks, k < rows.length) → (∀ j : ℕ, out[j]? = ks[j]?.bind fun k => rows[k]?) → out.length = ks.length := by
    intro α rows out hr ho
    apply Nat.le_antisymm
    · by_contra hc
      have hlt : ks.length < out.length := by omega
      have := ho ks.length
      rw [List.getElem?_eq_getElem hlt, List.getElem?_eq_none (Nat.le_refl _)] at this
      cases this
    · by_contra hc
      have hlt : out.length < ks.length := by omega
      have := ho out.length
      rw [List.getElem?_eq_none (Nat.le_refl _), List.getElem?_eq_getElem hlt] at this
      simp only [Option.bind_some] at this
      rw [List.getElem?_eq_getElem (hr _ (List.getElem_mem hlt))] at this
      cases this
  exact ⟨key _ _ h.inRange h.data, key _ _ (fun k hk => hb.len ▸ h.inRange k hk) h.evdata⟩

/-- C139: a selection of rows of a batch in order is in order. -/
theorem C139_well_formed (b r : Batch V E) (ks : List ℕ) (hb : Wf b) (h : Selects b r ks) : Wf r := by
  obtain ⟨h1, h2⟩ := selects_length hb h
  have mem : ∀ {α : Type} (rows out : List α), (∀ j : ℕ, out[j]? = ks[j]?.bind fun k => rows[k]?) → ∀ x ∈ out, x ∈ rows := by
    intro α rows out ho x hx
    obtain ⟨j, hj⟩ := List.mem_iff_getElem?.1 hx
    rw [ho] at hj
    obtain ⟨k, _, hk⟩ := Option.bind_eq_some_iff.1 hj
    exact List.mem_iff_getElem?.2 ⟨k, hk⟩
  refine ⟨by rw [h1, h2], ?_, ?_, by rw [h.senses, h.evWidth]; exact hb.objs⟩
  · intro row hrow
    rw [h.dataWidth]
    exact hb.dataWidth row (mem _ _ h.data row hrow)
  · intro row hrow
    rw [h.evWidth]
    exact hb.evWidth row (mem _ _ h.evdata row hrow)

/-! ### Slices -/

theorem bound_le (n : ℕ) (x : Option ℤ) (d : ℕ) (hd : d ≤ n) : bound n x d ≤ n := by
  unfold bound
  cases x with
  | none => exact hd
  | some i => simp only; split <;> omega

/-- C139: the ends of a slice: a missing end is the end of the batch, a negative one counts from the end of the batch, and what is beyond the batch is clipped. -/
theorem C139_bounds (n d : ℕ) (i : ℤ) : bound n none d = d ∧ (0 ≤ i → (bound n (some i) d : ℤ) = min i n) ∧ (i < 0 → (bound n (some i) d : ℤ) = max 0 (n + i)) := by
  refine ⟨rfl, ?_, ?_⟩
  · intro h
    simp only [bound]
    rw [if_neg (by omega)]
    omega
  · intro h
    simp only [bound]
    rw [if_pos h]
    omega

/-- C139: a slice of a batch has, in order, the solutions from the first to the last index of the slice in steps of the given size: member `j` is solution `first + j * step` if this is before the end.
Negative indices count from the end, and indices beyond the batch are clipped. A step that is not positive is a ValueError. -/
theorem C139_slice (b : Batch V E) (hb : Wf b) (start stop step : Option ℤ) :
    (0 < step.getD 1 → ∃ r ks, sliceOf b (.slice start stop step) = .ok r ∧ Selects b r ks ∧
      ∀ j : ℕ, ks[j]? = if bound b.data.rows.length start 0 + j * (step.getD 1).toNat < bound b.data.rows.length stop b.data.rows.length
        then some (bound b.data.rows.length start 0 + j * (step.getD 1).toNat) else none) ∧
    (step.getD 1 ≤ 0 → sliceOf b (.slice start stop step) = .error .valueError) := by
  constructor
  · intro hpos
    generalize hst : step.getD 1 = st at hpos ⊢
    have hs : slicePick b.data.rows.length start stop step =
        .ok (List.range' (bound b.data.rows.length start 0) ((bound b.data.rows.length stop b.data.rows.length - bound b.data.rows.length start 0 + (st.toNat - 1)) / st.toNat) st.toNat) := by
      simp only [slicePick, hst]
      rw [if_neg (by omega)]
    have hget : ∀ j : ℕ, (List.range' (bound b.data.rows.length start 0) ((bound b.data.rows.length stop b.data.rows.length - bound b.data.rows.length start 0 + (st.toNat - 1)) / st.toNat) st.toNat)[j]? =
        if bound b.data.rows.length start 0 + j * st.toNat < bound b.data.rows.length stop b.data.rows.length then some (bound b.data.rows.length start 0 + j * st.toNat) else none := by
      intro j
      have hp : 0 < st.toNat := by omega
      have hcount : j < (bound b.data.rows.length stop b.data.rows.length - bound b.data.rows.length start 0 + (st.toNat - 1)) / st.toNat ↔
          bound b.data.rows.length start 0 + j * st.toNat < bound b.data.rows.length stop b.data.rows.length := by
        rw [Nat.lt_div_iff_mul_lt hp]
        omega
      split
      · rename_i hlt
        rw [List.getElem?_range' (hcount.2 hlt), Nat.mul_comm]
      · rename_i hge
        rw [List.getElem?_eq_none]
        simp only [List.length_range']
        have := mt hcount.1 hge
        omega
    refine ⟨_, _, ?_, selects_of b hb _ ?_, hget⟩
    · simp only [sliceOf, safeSlice, getIdx, ← hb.len, hs]
      rfl
    · intro k hk
      obtain ⟨j, hj⟩ := List.mem_iff_getElem?.1 hk
      rw [hget] at hj
      split at hj
      · rename_i hlt
        have := bound_le b.data.rows.length stop b.data.rows.length (Nat.le_refl _)
        cases hj
        omega
      · cases hj
  · intro h
    have hs : slicePick b.data.rows.length start stop step = .error .valueError := by
      simp only [slicePick]
      rw [if_pos h]
    simp only [sliceOf, safeSlice, getIdx, hs]
    rfl

/-! ### Lists of indices and masks -/

theorem mapM_ok {ε : Type} (f : α → Except ε β) (g : α → β) (l : List α) (h : ∀ x ∈ l, f x = .ok (g x)) : l.mapM f = .ok (l.map g) := by
  induction l with
  | nil => rfl
  | cons x l ih =>
    rw [List.mapM_cons, h x (by simp), ih (fun y hy => h y (by simp [hy]))]
    rfl

theorem mapM_error {ε : Type} (f : α → Except ε β) (e : ε) (l : List α) (hall : ∀ x ∈ l, f x = .error e ∨ ∃ y, f x = .ok y) (hbad : ∃ x ∈ l, f x = .error e) : l.mapM f = .error e := by
  induction l with
  | nil => obtain ⟨x, hx, _⟩ := hbad; cases hx
  | cons x l ih =>
    rw [List.mapM_cons]
    rcases hall x (by simp) with h | ⟨y, h⟩
    · rw [h]; rfl
    · rw [h]
      have hbad' : ∃ x ∈ l, f x = .error e := by
        obtain ⟨z, hz, hze⟩ := hbad
        rcases List.mem_cons.1 hz with rfl | hz
        · rw [h] at hze; cases hze
        · exact ⟨z, hz, hze⟩
      have := ih (fun y hy => hall y (by simp [hy])) hbad'
      simp only [bind, Except.bind] at this ⊢
      rw [this]

/-- C139: `take` and indexing with a list of integers give the named solutions, in the order of the list; negative integers count from the end. One index out of range is an IndexError. -/
theorem C139_indices (b : Batch V E) (hb : Wf b) (l : List ℤ) :
    ((∀ i ∈ l, -(b.data.rows.length : ℤ) ≤ i ∧ i < b.data.rows.length) → ∃ r, take b (some (.ints l)) = .ok r ∧ sliceOf b (.ints l) = .ok r ∧
      Selects b r (l.map fun (i : ℤ) => (if i < 0 then i + b.data.rows.length else i).toNat)) ∧
    ((∃ i ∈ l, ¬ (-(b.data.rows.length : ℤ) ≤ i ∧ i < b.data.rows.length)) → take b (some (.ints l)) = .error .indexError) := by
  constructor
  · intro h
    have hm : l.mapM (intPick b.data.rows.length) = .ok (l.map fun (i : ℤ) => (if i < 0 then i + b.data.rows.length else i).toNat) := by
      apply mapM_ok
      intro i hi
      unfold intPick
      rw [if_pos (h i hi)]
    have hs : sliceOf b (.ints l) = .ok ⟨{ b.data with rows := pickRows b.data.rows (l.map fun (i : ℤ) => (if i < 0 then i + b.data.rows.length else i).toNat) },
        { b.evdata with rows := pickRows b.evdata.rows (l.map fun (i : ℤ) => (if i < 0 then i + b.data.rows.length else i).toNat) }, b.descending⟩ := by
      simp only [sliceOf, safeSlice, getIdx, ← hb.len, hm]
      rfl
    refine ⟨_, by simp only [take, isSequence, if_true]; exact hs, hs, selects_of b hb _ ?_⟩
    intro k hk
    obtain ⟨i, hi, rfl⟩ := List.mem_map.1 hk
    have := h i hi
    split <;> omega
  · intro h
    have hm : l.mapM (intPick b.data.rows.length) = .error .indexError := by
      apply mapM_error
      · intro i _
        unfold intPick
        split
        · exact Or.inr ⟨_, rfl⟩
        · exact Or.inl rfl
      · obtain ⟨i, hi, hbad⟩ := h
        exact ⟨i, hi, if_neg hbad⟩
    simp only [take, isSequence, if_true, sliceOf, safeSlice, getIdx, hm]
    rfl

theorem mask_rows (mask : List Bool) : ∀ (pre rows : List α), mask.length = rows.length →
    pickRows (pre ++ rows) (((mask.zipIdx pre.length).filter (·.1)).map (·.2)) = ((rows.zip mask).filter (·.2)).map (·.1) := by
  induction mask with
  | nil => intro pre rows h; cases rows <;> simp_all [pickRows]
  | cons m mask ih =>
    intro pre rows h
    cases rows with
    | nil => simp at h
    | cons x rows =>
      have := ih (pre ++ [x]) rows (by simpa using h)
      simp only [List.length_append, List.length_cons, List.length_nil, List.append_assoc, List.singleton_append, Nat.zero_add] at this
      cases m with
      | false =>
        simp only [List.zipIdx_cons, List.zip_cons_cons]
        rw [List.filter_cons_of_neg (by simp), List.filter_cons_of_neg (by simp)]
        exact this
      | true =>
        simp only [List.zipIdx_cons, List.zip_cons_cons]
        rw [List.filter_cons_of_pos (by simp), List.filter_cons_of_pos (by simp)]
        simp only [List.map_cons]
        rw [← this]
        unfold pickRows
        rw [List.filterMap_cons_some (b := x) (by simp)]

/-- C139: indexing with one boolean per solution gives the solutions marked true, in order, with their evaluations. A mask of another length is an IndexError. -/
theorem C139_mask (b : Batch V E) (hb : Wf b) (mask : List Bool) :
    (mask.length = b.data.rows.length → ∃ r, sliceOf b (.mask mask) = .ok r ∧ take b (some (.mask mask)) = .ok r ∧ r.data.rows = ((b.data.rows.zip mask).filter (·.2)).map (·.1) ∧
      r.evdata.rows = ((b.evdata.rows.zip mask).filter (·.2)).map (·.1) ∧ r.data.width = b.data.width ∧ r.evdata.width = b.evdata.width ∧ r.descending = b.descending) ∧
    (mask.length ≠ b.data.rows.length → sliceOf b (.mask mask) = .error .indexError) := by
  constructor
  · intro h
    have h' : mask.length = b.evdata.rows.length := by rw [← hb.len]; exact h
    have hs : sliceOf b (.mask mask) = .ok ⟨{ b.data with rows := pickRows b.data.rows ((mask.zipIdx.filter (·.1)).map (·.2)) },
        { b.evdata with rows := pickRows b.evdata.rows ((mask.zipIdx.filter (·.1)).map (·.2)) }, b.descending⟩ := by
      simp only [sliceOf, safeSlice, getIdx, if_pos h, if_pos h']
      rfl
    exact ⟨_, hs, by simp only [take, isSequence, if_true]; exact hs, mask_rows mask [] _ h, mask_rows mask [] _ h', rfl, rfl, rfl⟩
  · intro h
    simp only [sliceOf, safeSlice, getIdx, if_neg h]
    rfl

/-! ### Refusals -/

/-- C139: what would change the number of dimensions is a ValueError: a tuple with an integer in range, or an index of more dimensions. A tuple with more members than there are dimensions is an IndexError. `take` refuses what is not a sequence with a TypeError, and treats tuples and nested lists as `batch[...]` does. -/
theorem C139_refused (b : Batch V E) (i : ℤ) (hi : -(b.data.rows.length : ℤ) ≤ i ∧ i < b.data.rows.length) :
    sliceOf b (.tuple [.int i]) = .error .valueError ∧ sliceOf b .nested = .error .valueError ∧
      (∀ j : ℤ, -(b.data.width : ℤ) ≤ j ∧ j < b.data.width → sliceOf b (.tuple [.int i, .int j]) = .error .valueError) ∧
      (∀ x y z, take b (some (.slice x y z)) = .error .typeError) ∧ take b none = .error .typeError ∧ take b (some .ellipsis) = .error .typeError ∧
      (∀ x y z l, sliceOf b (.tuple (x :: y :: z :: l)) = .error .indexError) ∧ take b (some .nested) = .error .valueError ∧ (∀ l, take b (some (.tuple l)) = sliceOf b (.tuple l)) := by
  have h1 : intPick b.data.rows.length i = .ok (if i < 0 then i + b.data.rows.length else i).toNat := if_pos hi
  refine ⟨?_, rfl, ?_, fun _ _ _ => rfl, rfl, rfl, fun x y z l => by cases x <;> cases y <;> rfl, rfl, fun _ => rfl⟩
  · simp only [sliceOf, safeSlice, getIdx, h1]
    rfl
  · intro j hj
    have h2 : intPick b.data.width j = .ok (if j < 0 then j + b.data.width else j).toNat := if_pos hj
    simp only [sliceOf, safeSlice, getIdx, h1, h2]
    rfl

/-! ### Merging and splitting -/

/-- C139: merging batches whose solutions have the same number of values and of evaluation columns puts all their solutions, with their evaluations, one batch after the other; the senses are those of
the first batch. `concat` and `cat` do the same. Merging nothing is an error, and so is something that is not a batch. -/
theorem C139_merge_partial (first : Batch V E) (rest : List (Batch V E)) (hd : ∀ b ∈ rest, b.data.width = first.data.width) (he : ∀ b ∈ rest, b.evdata.width = first.evdata.width) :
    mergingOf (first :: rest) = .ok ⟨⟨first.data.width, ((first :: rest).map (·.data.rows)).flatten⟩, ⟨first.evdata.width, ((first :: rest).map (·.evdata.rows)).flatten⟩, first.descending⟩ ∧
      concat first rest = mergingOf (first :: rest) ∧ cat ((first :: rest).map some) = mergingOf (first :: rest) ∧
      mergingOf ([] : List (Batch V E)) = .error .indexError ∧ cat ([] : List (Option (Batch V E))) = .error .attributeError ∧
      (∀ l : List (Option (Batch V E)), none ∈ l → cat l = .error .typeError) := by
  refine ⟨?_, rfl, ?_, rfl, rfl, ?_⟩
  · have hm : (first :: rest).mapM (fun b => do
        let d ← castRows first.data.width b.data
        let e ← castRows first.evdata.width b.evdata
        (.ok (d, e) : Except PyErr (List (List V) × List (List E)))) = .ok ((first :: rest).map fun b => (b.data.rows, b.evdata.rows)) := by
      apply mapM_ok
      intro b hb
      have h1 : b.data.width = first.data.width := by
        rcases List.mem_cons.1 hb with rfl | hb
        · rfl
        · exact hd b hb
      have h2 : b.evdata.width = first.evdata.width := by
        rcases List.mem_cons.1 hb with rfl | hb
        · rfl
        · exact he b hb
      simp only [castRows, if_pos h1, if_pos h2]
      rfl
    simp only [mergingOf, hm]
    simp only [bind, Except.bind, List.map_map, Function.comp_def]
  · have hm : ((first :: rest).map some).mapM asBatch = .ok (first :: rest) := by
      rw [mapM_ok _ (fun b => b.getD first) _ (by
        intro x hx
        obtain ⟨b, _, rfl⟩ := List.mem_map.1 hx
        rfl)]
      simp [List.map_map, Function.comp_def]
    unfold cat
    rw [hm]
    rfl
  · intro l hl
    unfold cat
    rw [mapM_error _ .typeError l (by
      intro x _
      cases x with
      | none => exact Or.inl rfl
      | some b => exact Or.inr ⟨b, rfl⟩) ⟨none, hl, rfl⟩]
    rfl

theorem pickRows_range' (rows : List α) (lo count : ℕ) (h : lo + count ≤ rows.length) : pickRows rows (List.range' lo count 1) = (rows.drop lo).take count := by
  apply List.ext_getElem?
  intro j
  rw [pickRows_get _ _ (by intro k hk; obtain ⟨i, hi, rfl⟩ := List.mem_range'.1 hk; omega)]
  by_cases hj : j < count
  · rw [List.getElem?_range' hj, List.getElem?_take_of_lt hj, List.getElem?_drop]
    simp
  · rw [List.getElem?_eq_none (by simp; omega), List.getElem?_take_eq_none (by omega)]
    rfl

/-- C139: splitting a batch and merging the pieces again gives the batch: no solution or evaluation is lost or moved. (C09 says which sizes the pieces have.) -/
theorem C139_split_and_cat (b : Batch V E) (hb : Wf b) (sizes : List ℕ) (hne : sizes ≠ []) (hsum : sizes.sum = b.data.rows.length) :
    ∃ ps, split b sizes = .ok ps ∧ ps.length = sizes.length ∧ cat (ps.map some) = .ok b := by
  have hslice : ∀ p ∈ Workload.pieceSlices 0 sizes, p.1 ≤ p.2 ∧ p.2 ≤ b.data.rows.length := by
    have key : ∀ (sizes : List ℕ) (s n : ℕ), s + sizes.sum ≤ n → ∀ p ∈ Workload.pieceSlices s sizes, p.1 ≤ p.2 ∧ p.2 ≤ n := by
      intro sizes
      induction sizes with
      | nil => intro s n _ p hp; cases hp
      | cons k sizes ih =>
        intro s n hs p hp
        simp only [List.sum_cons] at hs
        simp only [Workload.pieceSlices, List.mem_cons] at hp
        rcases hp with rfl | hp
        · simp only; omega
        · exact ih (s + k) n (by omega) p hp
    exact key sizes 0 _ (by omega)
  have hone : ∀ p ∈ Workload.pieceSlices 0 sizes, sliceOf b (.slice (some (p.1 : ℤ)) (some (p.2 : ℤ)) none) =
      .ok ⟨{ b.data with rows := Workload.slice b.data.rows p }, { b.evdata with rows := Workload.slice b.evdata.rows p }, b.descending⟩ := by
    intro p hp
    obtain ⟨h1, h2⟩ := hslice p hp
    have e1 : bound b.data.rows.length (some (p.1 : ℤ)) 0 = p.1 := by
      simp only [bound]; rw [if_neg (by omega)]; omega
    have e2 : bound b.data.rows.length (some (p.2 : ℤ)) b.data.rows.length = p.2 := by
      simp only [bound]; rw [if_neg (by omega)]; omega
    have hs : slicePick b.data.rows.length (some (p.1 : ℤ)) (some (p.2 : ℤ)) none = .ok (List.range' p.1 (p.2 - p.1) 1) := by
      simp only [slicePick, Option.getD_none, e1, e2]
      rw [if_neg (by omega)]
      simp
    simp only [sliceOf, safeSlice, getIdx, ← hb.len, hs]
    have q1 := pickRows_range' b.data.rows p.1 (p.2 - p.1) (by omega)
    have q2 := pickRows_range' b.evdata.rows p.1 (p.2 - p.1) (by rw [← hb.len]; omega)
    simp only [bind, Except.bind, q1, q2, Workload.slice]
  have hsplit : split b sizes = .ok ((Workload.pieceSlices 0 sizes).map fun p => ⟨{ b.data with rows := Workload.slice b.data.rows p }, { b.evdata with rows := Workload.slice b.evdata.rows p }, b.descending⟩) :=
    mapM_ok _ _ _ hone
  have hlen : ∀ (sizes : List ℕ) (s : ℕ), (Workload.pieceSlices s sizes).length = sizes.length := by
    intro sizes
    induction sizes with
    | nil => intro s; rfl
    | cons k sizes ih => intro s; simp [Workload.pieceSlices, ih]
  refine ⟨_, hsplit, by simp [hlen], ?_⟩
  have hflat : ∀ {α : Type} (rows : List α), rows.length = sizes.sum → ((Workload.pieceSlices 0 sizes).map (Workload.slice rows)).flatten = rows := by
    intro α rows h
    have := Workload.pieces_flatten_aux rows sizes 0 (by omega)
    simpa [Workload.pieces, ← h] using this
  cases hps : Workload.pieceSlices 0 sizes with
  | nil =>
    have := hlen sizes 0
    rw [hps] at this
    exact absurd (List.length_eq_zero_iff.1 this.symm) hne
  | cons p ps =>
    have hm := C139_merge_partial (⟨{ b.data with rows := Workload.slice b.data.rows p }, { b.evdata with rows := Workload.slice b.evdata.rows p }, b.descending⟩ : Batch V E)
      (ps.map fun p => ⟨{ b.data with rows := Workload.slice b.data.rows p }, { b.evdata with rows := Workload.slice b.evdata.rows p }, b.descending⟩)
      (by intro x hx; obtain ⟨q, _, rfl⟩ := List.mem_map.1 hx; rfl) (by intro x hx; obtain ⟨q, _, rfl⟩ := List.mem_map.1 hx; rfl)
    have h1 := hflat b.data.rows (by omega)
    have h2 := hflat b.evdata.rows (by rw [← hb.len]; omega)
    rw [hps] at h1 h2
    rw [List.map_cons, hm.2.2.1, hm.1]
    simp only [List.map_cons, List.map_map, Function.comp_def] at h1 h2 ⊢
    rw [h1, h2]

/-! ### Arguments -/

/-- C139: a batch is made in one of four ways, and the arguments of different ways cannot be mixed: a slice and a merge take no other argument; a batch like another one takes neither of these; a new
batch needs a problem. Everything else is a ValueError. -/
theorem C139_arguments (g : Given) :
    (way g = .ok .slice ↔ g.sliceOf = true ∧ g.problem = false ∧ g.popsize = false ∧ g.device = false ∧ g.like = false ∧ g.mergingOf = false ∧ g.empty = false) ∧
    (way g = .ok .like ↔ g.like = true ∧ g.sliceOf = false ∧ g.mergingOf = false) ∧
    (way g = .ok .merge ↔ g.mergingOf = true ∧ g.problem = false ∧ g.popsize = false ∧ g.device = false ∧ g.like = false ∧ g.sliceOf = false ∧ g.empty = false) ∧
    (way g = .ok .new ↔ g.problem = true ∧ g.sliceOf = false ∧ g.like = false ∧ g.mergingOf = false) ∧
    (∀ e, way g = .error e → e = .valueError) := by
  rcases g with ⟨a, b, c, d, e, f, h⟩
  cases a <;> cases b <;> cases c <;> cases d <;> cases e <;> cases f <;> cases h <;> simp [way]

/-! ### Where it fails -/

/-- Two solutions with two values and one objective. -/
def exBatch : Batch ℕ ℕ := ⟨⟨2, [[1, 2], [3, 4]]⟩, ⟨1, [[10], [20]]⟩, [false]⟩

theorem exBatch_wf : Wf exBatch := ⟨rfl, by decide, by decide, by decide⟩

/-- C139 fails: slices of columns are documented as illegal ("would change the shape of the stored tensors") but are not refused, since only the number of dimensions is compared. `batch[:, 1:]` is a
batch without the first values and without its evaluation columns, which still claims to have an objective. -/
theorem C139_violated_columns : sliceOf exBatch (.tuple [.slice none none none, .slice (some 1) none none]) = .ok ⟨⟨1, [[2], [4]]⟩, ⟨0, [[], []]⟩, [false]⟩ ∧
    ∀ r : Batch ℕ ℕ, sliceOf exBatch (.tuple [.slice none none none, .slice (some 1) none none]) = .ok r → ¬ Wf r := by
  have h : sliceOf exBatch (.tuple [.slice none none none, .slice (some 1) none none]) = .ok ⟨⟨1, [[2], [4]]⟩, ⟨0, [[], []]⟩, [false]⟩ := rfl
  refine ⟨h, ?_⟩
  intro r hr
  rw [h] at hr
  cases hr
  intro hw
  exact absurd hw.objs (by decide)

/-- C139 fails: `take` does not take the solutions named in a tuple: with an empty tuple it gives the whole batch instead of none of its solutions, and with a tuple of valid indices it fails. -/
theorem C139_violated_tuple : (∀ b : Batch V E, take b (some (.tuple [])) = .ok b) ∧ take exBatch (some (.tuple [.int 0, .int 1])) = .error .valueError ∧
    take exBatch (some (.ints [0, 1])) = .ok exBatch ∧ ∀ b : Batch V E, Wf b → ∃ r, take b (some (.ints [])) = .ok r ∧ r.data.rows = [] := by
  refine ⟨fun b => rfl, rfl, rfl, ?_⟩
  intro b hb
  obtain ⟨r, h1, _, h2⟩ := (C139_indices b hb []).1 (by simp)
  exact ⟨r, h1, by simpa using (selects_length hb h2).1⟩

/-- C139 fails: merging does not check that the batches fit. Solutions of a maximisation problem merged into a batch of a minimisation problem are from then on compared as if they were to be minimised;
and a batch with one value per solution merged into a batch with more is accepted, with its values repeated. -/
theorem C139_violated_merge (first b : Batch V E) (h1 : first.data.width ≠ 1) (hb : b.data.width = 1) (he : b.evdata.width = first.evdata.width) :
    (∃ r, concat exBatch [{ exBatch with descending := [true] }] = .ok r ∧ r.descending = [false]) ∧
    ∃ r, concat first [b] = .ok r ∧ r.data.rows = first.data.rows ++ b.data.rows.map fun row => (List.replicate first.data.width row).flatten := by
  constructor
  · exact ⟨_, rfl, rfl⟩
  · have h2 : ¬ b.data.width = first.data.width := by rw [hb]; exact fun h => h1 h.symm
    refine ⟨⟨⟨first.data.width, (([first.data.rows, b.data.rows.map fun row => (List.replicate first.data.width row).flatten]).flatten)⟩, ⟨first.evdata.width, [first.evdata.rows, b.evdata.rows].flatten⟩, first.descending⟩, ?_, by simp⟩
    have c1 : castRows first.data.width first.data = .ok first.data.rows := if_pos rfl
    have c2 : castRows first.evdata.width first.evdata = .ok first.evdata.rows := if_pos rfl
    have c3 : castRows first.data.width b.data = .ok (b.data.rows.map fun row => (List.replicate first.data.width row).flatten) := by
      unfold castRows
      rw [if_neg h2, if_pos hb]
    have c4 : castRows first.evdata.width b.evdata = .ok b.evdata.rows := if_pos he
    simp only [concat, mergingOf, List.mapM_cons, List.mapM_nil, c1, c2, c3, c4]
    rfl

example : sliceOf exBatch (.slice (some (-1)) none none) = .ok ⟨⟨2, [[3, 4]]⟩, ⟨1, [[20]]⟩, [false]⟩ := rfl
example : take exBatch (some (.ints [-1, 0, 1])) = .ok ⟨⟨2, [[3, 4], [1, 2], [3, 4]]⟩, ⟨1, [[20], [10], [20]]⟩, [false]⟩ := rfl
example : sliceOf exBatch (.mask [false, true]) = .ok ⟨⟨2, [[3, 4]]⟩, ⟨1, [[20]]⟩, [false]⟩ := rfl
example : concat exBatch [exBatch] = .ok ⟨⟨2, [[1, 2], [3, 4], [1, 2], [3, 4]]⟩, ⟨1, [[10], [20], [10], [20]]⟩, [false]⟩ := rfl
example : ∃ b : Batch ℕ ℕ, Wf b ∧ [1, 0, 1].sum = b.data.rows.length := ⟨exBatch, exBatch_wf, rfl⟩

end EvoTorch.BatchMake
