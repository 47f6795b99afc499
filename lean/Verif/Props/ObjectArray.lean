import Verif.Model.ObjectArray
import Mathlib.Data.List.Basic
import Mathlib.Tactic.Common
/-!
C35: `ObjectArray` views share, copies do not, read-only arrays refuse writes.
-/
namespace EvoTorch.ObjectArray
variable {V : Type} {imm : V → Option V} {none' : V}

/-! ### Specification -/

/-- The families of arrays after a history: a slice or a read-only view belongs to the family of the array it was taken from; a new array, an array
made by indexing with a list and a clone start a family of their own. `(step ..).result = .ok (some _)` says that the operation created an array. -/
def famStep (imm : V → Option V) (none' : V) (hf : Heap V × List Nat) (op : Op V) : Heap V × List Nat :=
  let o := step imm none' hf.1 op
  (o.state, match o.result with
    | .ok (some _) => hf.2 ++ [match op with
        | .slice a _ _ _ => hf.2.getD a 0
        | .readOnlyView a => hf.2.getD a 0
        | _ => hf.2.length]
    | _ => hf.2)

/-- The heap and the families after a history. -/
def history (imm : V → Option V) (none' : V) (ops : List (Op V)) : Heap V × List Nat := ops.foldl (famStep imm none') (empty, [])

/-- The array an operation writes to, if it is a write. -/
def writesTo : Op V → Option Nat
  | .setInt a _ _ => some a
  | .setSlice a _ _ _ _ => some a
  | .setSliceFrom a _ _ _ _ => some a
  | .setIndex a _ _ => some a
  | _ => none

/-! ### Lemmas -/

@[simp] theorem write_arrays (h : Heap V) (s j : Nat) (v : V) : (h.write s j v).arrays = h.arrays := rfl

theorem writeLoop_arrays (h : Heap V) (s : Nat) (ts : List (Nat × V)) : (writeLoop imm h s ts).state.arrays = h.arrays := by
  induction ts generalizing h with
  | nil => rfl
  | cons t ts ih =>
    obtain ⟨j, x⟩ := t
    rw [writeLoop]; cases imm x with
    | none => rfl
    | some v => exact ih _

theorem copyLoop_arrays (h : Heap V) (s : Nat) (src : Arr) (ts : List (Nat × Nat)) : (copyLoop imm h s src ts).state.arrays = h.arrays := by
  induction ts generalizing h with
  | nil => rfl
  | cons t ts ih =>
    obtain ⟨j, x⟩ := t
    rw [copyLoop]; cases (h.read src x).bind imm with
    | none => rfl
    | some v => exact ih _

theorem setMany_arrays (h : Heap V) (a : Arr) (pos : List Nat) (xs : List V) : (setMany imm h a pos xs).state.arrays = h.arrays := by
  unfold setMany
  split
  · rfl
  · dsimp only
    split
    · rfl
    · exact writeLoop_arrays _ _ _

/-- Arrays are never changed or removed. -/
theorem step_arrays (h : Heap V) (op : Op V) : ∃ l, (step imm none' h op).state.arrays = h.arrays ++ l := by
  cases op with
  | new n => exact ⟨_, rfl⟩
  | slice a start stop st =>
    simp only [step]; split
    · exact ⟨[], by simp⟩
    · split
      · exact ⟨[], by simp⟩
      · exact ⟨_, rfl⟩
  | index a is =>
    simp only [step]; split
    · exact ⟨[], by simp⟩
    · split
      · exact ⟨[], by simp⟩
      · exact ⟨_, rfl⟩
  | readOnlyView a =>
    simp only [step]; split
    · exact ⟨[], by simp⟩
    · exact ⟨_, rfl⟩
  | clone a =>
    simp only [step]; split
    · exact ⟨[], by simp⟩
    · exact ⟨_, rfl⟩
  | setInt a i x =>
    refine ⟨[], ?_⟩
    simp only [step, List.append_nil]; split
    · rfl
    · split
      · rfl
      · split
        · rfl
        · exact writeLoop_arrays _ _ _
  | setSlice a start stop st xs =>
    refine ⟨[], ?_⟩
    simp only [step, List.append_nil]; split
    · rfl
    · split
      · rfl
      · exact setMany_arrays _ _ _ _
  | setSliceFrom a start stop st b =>
    refine ⟨[], ?_⟩
    simp only [step, List.append_nil]; split
    · split
      · rfl
      · split
        · rfl
        · exact copyLoop_arrays _ _ _ _
    · rfl
  | setIndex a is xs =>
    refine ⟨[], ?_⟩
    simp only [step, List.append_nil]; split
    · rfl
    · split
      · rfl
      · split
        · rfl
        · exact setMany_arrays _ _ _ _

theorem run_arrays (h : Heap V) (ops : List (Op V)) (a : Nat) (arr : Arr) (ha : h.arrays[a]? = some arr) :
    (run imm none' h ops).arrays[a]? = some arr := by
  induction ops generalizing h with
  | nil => exact ha
  | cons op ops ih =>
    apply ih
    obtain ⟨l, hl⟩ := step_arrays (imm := imm) (none' := none') h op
    rw [hl, List.getElem?_append_left (List.getElem?_eq_some_iff.mp ha).1, ha]

theorem slicePositions_lt (n : Nat) (start stop : Option Int) (st p : Nat) (h : p ∈ slicePositions n start stop st) : p < n := by
  simp only [slicePositions, List.mem_filter, List.mem_range] at h; exact h.1

theorem filterMap_idx (idx : List Nat) (ps : List Nat) (h : ∀ p ∈ ps, p < idx.length) (k : Nat) :
    (ps.filterMap fun p => idx[p]?)[k]? = ps[k]?.bind fun p => idx[p]? := by
  induction ps generalizing k with
  | nil => simp
  | cons p ps ih =>
    have hp := h p (by simp)
    rw [List.filterMap_cons, List.getElem?_eq_getElem hp]
    cases k with
    | zero => simp [List.getElem?_eq_getElem hp]
    | succ k => simpa using ih (fun q hq => h q (List.mem_cons_of_mem _ hq)) k

theorem filterMap_idx_length (idx : List Nat) (ps : List Nat) (h : ∀ p ∈ ps, p < idx.length) : (ps.filterMap fun p => idx[p]?).length = ps.length := by
  induction ps with
  | nil => rfl
  | cons p ps ih =>
    rw [List.filterMap_cons, List.getElem?_eq_getElem (h p (by simp))]
    simp [ih fun q hq => h q (List.mem_cons_of_mem _ hq)]

/-! ### Stores -/

theorem write_other (h : Heap V) (s j : Nat) (v : V) (t : Nat) (ht : t ≠ s) : (h.write s j v).stores[t]? = h.stores[t]? := by
  simp [Heap.write, List.getElem?_modify, Ne.symm ht]

@[simp] theorem write_stores_length (h : Heap V) (s j : Nat) (v : V) : (h.write s j v).stores.length = h.stores.length := by
  simp [Heap.write]

theorem writeLoop_other (h : Heap V) (s : Nat) (ts : List (Nat × V)) (t : Nat) (ht : t ≠ s) :
    (writeLoop imm h s ts).state.stores[t]? = h.stores[t]? := by
  induction ts generalizing h with
  | nil => rfl
  | cons p ts ih =>
    obtain ⟨j, x⟩ := p
    rw [writeLoop]; cases imm x with
    | none => rfl
    | some v => exact (ih _).trans (write_other _ _ _ _ _ ht)

theorem copyLoop_other (h : Heap V) (s : Nat) (src : Arr) (ts : List (Nat × Nat)) (t : Nat) (ht : t ≠ s) :
    (copyLoop imm h s src ts).state.stores[t]? = h.stores[t]? := by
  induction ts generalizing h with
  | nil => rfl
  | cons p ts ih =>
    obtain ⟨j, x⟩ := p
    rw [copyLoop]; cases (h.read src x).bind imm with
    | none => rfl
    | some v => exact (ih _).trans (write_other _ _ _ _ _ ht)

theorem writeLoop_stores_length (h : Heap V) (s : Nat) (ts : List (Nat × V)) : (writeLoop imm h s ts).state.stores.length = h.stores.length := by
  induction ts generalizing h with
  | nil => rfl
  | cons p ts ih =>
    obtain ⟨j, x⟩ := p
    rw [writeLoop]; cases imm x with
    | none => rfl
    | some v => exact (ih _).trans (write_stores_length _ _ _ _)

theorem copyLoop_stores_length (h : Heap V) (s : Nat) (src : Arr) (ts : List (Nat × Nat)) :
    (copyLoop imm h s src ts).state.stores.length = h.stores.length := by
  induction ts generalizing h with
  | nil => rfl
  | cons p ts ih =>
    obtain ⟨j, x⟩ := p
    rw [copyLoop]; cases (h.read src x).bind imm with
    | none => rfl
    | some v => exact (ih _).trans (write_stores_length _ _ _ _)

theorem setMany_other (h : Heap V) (a : Arr) (pos : List Nat) (xs : List V) (t : Nat) (ht : t ≠ a.store) :
    (setMany imm h a pos xs).state.stores[t]? = h.stores[t]? := by
  unfold setMany
  split
  · rfl
  · dsimp only
    split
    · rfl
    · exact writeLoop_other _ _ _ _ ht

theorem setMany_stores_length (h : Heap V) (a : Arr) (pos : List Nat) (xs : List V) :
    (setMany imm h a pos xs).state.stores.length = h.stores.length := by
  unfold setMany
  split
  · rfl
  · dsimp only
    split
    · rfl
    · exact writeLoop_stores_length _ _ _

/-- What a write does: nothing is created, and only the store of its array changes. -/
theorem step_write (h : Heap V) (op : Op V) (w : Nat) (hw : writesTo op = some w) :
    (step imm none' h op).state.arrays = h.arrays ∧ (step imm none' h op).state.stores.length = h.stores.length ∧
    (∀ v, (step imm none' h op).result ≠ .ok (some v)) ∧
    (∀ t, (∀ arr, h.arrays[w]? = some arr → t ≠ arr.store) → (step imm none' h op).state.stores[t]? = h.stores[t]?) := by
  have done_ne : ∀ (o : Outcome (Heap V) Unit) (v : Nat), (o.result.map fun _ => (none : Option Nat)) ≠ .ok (some v) := by
    intro o v; cases o.result <;> simp [Except.map]
  cases op with
  | new n => simp [writesTo] at hw
  | slice a start stop st => simp [writesTo] at hw
  | index a is => simp [writesTo] at hw
  | readOnlyView a => simp [writesTo] at hw
  | clone a => simp [writesTo] at hw
  | setInt a i x =>
    simp only [writesTo, Option.some.injEq] at hw; subst hw
    simp only [step]; split
    · exact ⟨rfl, rfl, by simp, fun _ _ => rfl⟩
    · rename_i arr harr
      split
      · exact ⟨rfl, rfl, by simp, fun _ _ => rfl⟩
      · split
        · exact ⟨rfl, rfl, by simp, fun _ _ => rfl⟩
        · exact ⟨writeLoop_arrays _ _ _, writeLoop_stores_length _ _ _, done_ne _, fun t ht => writeLoop_other _ _ _ _ (ht arr harr)⟩
  | setSlice a start stop st xs =>
    simp only [writesTo, Option.some.injEq] at hw; subst hw
    simp only [step]; split
    · exact ⟨rfl, rfl, by simp, fun _ _ => rfl⟩
    · rename_i arr harr
      split
      · exact ⟨rfl, rfl, by simp, fun _ _ => rfl⟩
      · exact ⟨setMany_arrays _ _ _ _, setMany_stores_length _ _ _ _, done_ne _, fun t ht => setMany_other _ _ _ _ _ (ht arr harr)⟩
  | setSliceFrom a start stop st b =>
    simp only [writesTo, Option.some.injEq] at hw; subst hw
    simp only [step]; split
    · rename_i arr src harr _
      split
      · exact ⟨rfl, rfl, by simp, fun _ _ => rfl⟩
      · split
        · exact ⟨rfl, rfl, by simp, fun _ _ => rfl⟩
        · exact ⟨copyLoop_arrays _ _ _ _, copyLoop_stores_length _ _ _ _, done_ne _, fun t ht => copyLoop_other _ _ _ _ _ (ht arr harr)⟩
    · exact ⟨rfl, rfl, by simp, fun _ _ => rfl⟩
  | setIndex a is xs =>
    simp only [writesTo, Option.some.injEq] at hw; subst hw
    simp only [step]; split
    · exact ⟨rfl, rfl, by simp, fun _ _ => rfl⟩
    · rename_i arr harr
      split
      · exact ⟨rfl, rfl, by simp, fun _ _ => rfl⟩
      · split
        · exact ⟨rfl, rfl, by simp, fun _ _ => rfl⟩
        · exact ⟨setMany_arrays _ _ _ _, setMany_stores_length _ _ _ _, done_ne _, fun t ht => setMany_other _ _ _ _ _ (ht arr harr)⟩

/-- Every array refers to existing, pairwise different positions of an existing store. -/
def WF (h : Heap V) : Prop :=
  ∀ arr ∈ h.arrays, ∃ s, h.stores[arr.store]? = some s ∧ arr.idx.Nodup ∧ ∀ j ∈ arr.idx, j < s.length

theorem read_isSome {h : Heap V} (hwf : WF h) {arr : Arr} (ha : arr ∈ h.arrays) (k : Nat) (hk : k < arr.idx.length) : (h.read arr k).isSome := by
  obtain ⟨s, hs, _, hj⟩ := hwf arr ha
  have := hj _ (List.getElem_mem hk)
  simp [Heap.read, Heap.store, List.getElem?_eq_getElem hk, hs, List.getD_eq_getElem?_getD, this]

theorem filterMap_length_of_isSome {α β : Type} (g : α → Option β) (l : List α) (h : ∀ a ∈ l, (g a).isSome) : (l.filterMap g).length = l.length := by
  induction l with
  | nil => rfl
  | cons a l ih =>
    obtain ⟨b, hb⟩ := Option.isSome_iff_exists.mp (h a (by simp))
    rw [List.filterMap_cons, hb]
    simp [ih fun x hx => h x (List.mem_cons_of_mem _ hx)]

theorem filterMap_getElem {α β : Type} (g : α → Option β) (l : List α) (h : ∀ a ∈ l, (g a).isSome) (i : Nat) :
    (l.filterMap g)[i]? = l[i]?.bind g := by
  induction l generalizing i with
  | nil => simp
  | cons a l ih =>
    obtain ⟨b, hb⟩ := Option.isSome_iff_exists.mp (h a (by simp))
    rw [List.filterMap_cons, hb]
    cases i with
    | zero => simp [hb]
    | succ i => simpa using ih (fun x hx => h x (List.mem_cons_of_mem _ hx)) i

theorem normIndex_lt {n : Nat} {i : Int} {p : Nat} (h : normIndex n i = some p) : p < n := by
  unfold normIndex at h; split at h
  · split at h
    · cases h; assumption
    · cases h
  · split at h
    · cases h; omega
    · cases h

theorem mapM_normIndex_lt {n : Nat} {is : List Int} {ps : List Nat} (h : is.mapM (normIndex n) = some ps) : ∀ p ∈ ps, p < n := by
  induction is generalizing ps with
  | nil => simp at h; subst h; simp
  | cons i is ih =>
    rw [List.mapM_cons] at h
    simp only [Option.bind_eq_bind, Option.bind_eq_some_iff, Option.pure_def, Option.some.injEq] at h
    obtain ⟨p, hp, qs, hq, rfl⟩ := h
    intro q hq'
    rcases List.mem_cons.mp hq' with rfl | h'
    · exact normIndex_lt hp
    · exact ih hq q h'

/-- What any other operation does: stores are kept, possibly one is added, and possibly an array with the stated store. -/
theorem step_create (h : Heap V) (hwf : WF h) (op : Op V) (hw : writesTo op = none) :
    (∃ e, (step imm none' h op) = ⟨h, .error e⟩) ∨
    ∃ stores arr, (step imm none' h op) = ⟨⟨h.stores ++ stores, h.arrays ++ [arr]⟩, .ok (some h.arrays.length)⟩ ∧
      (match op with
        | .slice a _ _ _ => stores = [] ∧ ∃ src, h.arrays[a]? = some src ∧ arr.store = src.store ∧ arr.idx.Sublist src.idx ∧ (src.ro = true → arr.ro = true)
        | .readOnlyView a => stores = [] ∧ ∃ src, h.arrays[a]? = some src ∧ arr.store = src.store ∧ arr.idx = src.idx ∧ arr.ro = true
        | _ => arr.store = h.stores.length ∧ ∃ s, stores = [s] ∧ arr.idx = List.range s.length) := by
  cases op with
  | new n => exact Or.inr ⟨[List.replicate n none'], ⟨h.stores.length, List.range n, false⟩, rfl, rfl, _, rfl, by simp⟩
  | slice a start stop st =>
    simp only [step]; split
    · exact Or.inl ⟨_, rfl⟩
    · rename_i arr harr
      split
      · exact Or.inl ⟨_, rfl⟩
      · refine Or.inr ⟨[], ⟨arr.store, (slicePositions arr.idx.length start stop st).filterMap fun p => arr.idx[p]?, arr.ro⟩, by simp, rfl, arr, harr,
          rfl, ?_, id⟩
        have hsub : ((List.range arr.idx.length).filterMap fun p => arr.idx[p]?) = arr.idx := by
          apply List.ext_getElem?; intro k
          rw [filterMap_idx _ _ (by simp)]
          rcases Nat.lt_or_ge k arr.idx.length with hk | hk
          · rw [List.getElem?_range hk]; rfl
          · rw [List.getElem?_eq_none (by simpa using hk), List.getElem?_eq_none hk]; rfl
        have : ((slicePositions arr.idx.length start stop st).filterMap fun p => arr.idx[p]?).Sublist
            ((List.range arr.idx.length).filterMap fun p => arr.idx[p]?) := List.Sublist.filterMap _ List.filter_sublist
        rwa [hsub] at this
  | index a is =>
    simp only [step]; split
    · exact Or.inl ⟨_, rfl⟩
    · rename_i arr harr
      split
      · exact Or.inl ⟨_, rfl⟩
      · rename_i ps hps
        refine Or.inr ⟨[ps.filterMap (h.read arr)], ⟨h.stores.length, List.range ps.length, arr.ro⟩, rfl, rfl, _, rfl, ?_⟩
        rw [filterMap_length_of_isSome _ _ fun p hp => read_isSome hwf (List.mem_of_getElem? harr) p (mapM_normIndex_lt hps p hp)]
  | readOnlyView a =>
    simp only [step]; split
    · exact Or.inl ⟨_, rfl⟩
    · rename_i arr harr
      exact Or.inr ⟨[], ⟨arr.store, arr.idx, true⟩, by simp, rfl, arr, harr, rfl, rfl, rfl⟩
  | clone a =>
    simp only [step]; split
    · exact Or.inl ⟨_, rfl⟩
    · rename_i arr harr
      refine Or.inr ⟨[(List.range arr.idx.length).filterMap (h.read arr)], ⟨h.stores.length, List.range arr.idx.length, false⟩, rfl, rfl, _, rfl, ?_⟩
      rw [filterMap_length_of_isSome _ _ fun p hp => read_isSome hwf (List.mem_of_getElem? harr) p (by simpa using hp)]
      simp
  | setInt a i x => simp [writesTo] at hw
  | setSlice a start stop st xs => simp [writesTo] at hw
  | setSliceFrom a start stop st b => simp [writesTo] at hw
  | setIndex a is xs => simp [writesTo] at hw

theorem write_lengths (h : Heap V) (s j : Nat) (v : V) (t : Nat) (l : List V) (hl : h.stores[t]? = some l) :
    ∃ l', (h.write s j v).stores[t]? = some l' ∧ l'.length = l.length := by
  by_cases e : t = s
  · subst e; exact ⟨l.set j v, by simp [Heap.write, hl], by simp⟩
  · exact ⟨l, by rw [write_other _ _ _ _ _ e, hl], rfl⟩

theorem writeLoop_lengths (h : Heap V) (s : Nat) (ts : List (Nat × V)) (t : Nat) (l : List V) (hl : h.stores[t]? = some l) :
    ∃ l', (writeLoop imm h s ts).state.stores[t]? = some l' ∧ l'.length = l.length := by
  induction ts generalizing h l with
  | nil => exact ⟨l, hl, rfl⟩
  | cons p ts ih =>
    obtain ⟨j, x⟩ := p
    rw [writeLoop]; cases imm x with
    | none => exact ⟨l, hl, rfl⟩
    | some v =>
      obtain ⟨l1, h1, e1⟩ := write_lengths h s j v t l hl
      obtain ⟨l2, h2, e2⟩ := ih _ _ h1
      exact ⟨l2, h2, e2.trans e1⟩

theorem copyLoop_lengths (h : Heap V) (s : Nat) (src : Arr) (ts : List (Nat × Nat)) (t : Nat) (l : List V) (hl : h.stores[t]? = some l) :
    ∃ l', (copyLoop imm h s src ts).state.stores[t]? = some l' ∧ l'.length = l.length := by
  induction ts generalizing h l with
  | nil => exact ⟨l, hl, rfl⟩
  | cons p ts ih =>
    obtain ⟨j, x⟩ := p
    rw [copyLoop]; cases (h.read src x).bind imm with
    | none => exact ⟨l, hl, rfl⟩
    | some v =>
      obtain ⟨l1, h1, e1⟩ := write_lengths h s j v t l hl
      obtain ⟨l2, h2, e2⟩ := ih _ _ h1
      exact ⟨l2, h2, e2.trans e1⟩

theorem setMany_lengths (h : Heap V) (a : Arr) (pos : List Nat) (xs : List V) (t : Nat) (l : List V) (hl : h.stores[t]? = some l) :
    ∃ l', (setMany imm h a pos xs).state.stores[t]? = some l' ∧ l'.length = l.length := by
  unfold setMany
  split
  · exact ⟨l, hl, rfl⟩
  · dsimp only
    split
    · exact ⟨l, hl, rfl⟩
    · exact writeLoop_lengths _ _ _ _ _ hl

theorem step_lengths (h : Heap V) (op : Op V) (w : Nat) (hw : writesTo op = some w) (t : Nat) (l : List V) (hl : h.stores[t]? = some l) :
    ∃ l', (step imm none' h op).state.stores[t]? = some l' ∧ l'.length = l.length := by
  have triv : ∃ l', h.stores[t]? = some l' ∧ l'.length = l.length := ⟨l, hl, rfl⟩
  cases op with
  | new n => simp [writesTo] at hw
  | slice a start stop st => simp [writesTo] at hw
  | index a is => simp [writesTo] at hw
  | readOnlyView a => simp [writesTo] at hw
  | clone a => simp [writesTo] at hw
  | setInt a i x =>
    simp only [step]; split
    · exact triv
    · split
      · exact triv
      · split
        · exact triv
        · exact writeLoop_lengths _ _ _ _ _ hl
  | setSlice a start stop st xs =>
    simp only [step]; split
    · exact triv
    · split
      · exact triv
      · exact setMany_lengths _ _ _ _ _ _ hl
  | setSliceFrom a start stop st b =>
    simp only [step]; split
    · split
      · exact triv
      · split
        · exact triv
        · exact copyLoop_lengths _ _ _ _ _ _ hl
    · exact triv
  | setIndex a is xs =>
    simp only [step]; split
    · exact triv
    · split
      · exact triv
      · split
        · exact triv
        · exact setMany_lengths _ _ _ _ _ _ hl

theorem step_wf (h : Heap V) (hwf : WF h) (op : Op V) : WF (step imm none' h op).state := by
  cases hw : writesTo op with
  | some w =>
    intro arr harr
    rw [(step_write h op w hw).1] at harr
    obtain ⟨s, hs, hn, hj⟩ := hwf arr harr
    obtain ⟨l', hl', e⟩ := step_lengths (imm := imm) (none' := none') h op w hw _ _ hs
    exact ⟨l', hl', hn, fun j hj' => e ▸ hj j hj'⟩
  | none =>
    rcases step_create (imm := imm) (none' := none') h hwf op hw with ⟨e, he⟩ | ⟨stores, arr, he, hop⟩
    · rw [he]; exact hwf
    · rw [he]
      intro x hx
      have old : ∀ x ∈ h.arrays, ∃ s, (h.stores ++ stores)[x.store]? = some s ∧ x.idx.Nodup ∧ ∀ j ∈ x.idx, j < s.length := by
        intro x hx
        obtain ⟨s, hs, hn, hj⟩ := hwf x hx
        exact ⟨s, by rw [List.getElem?_append_left (List.getElem?_eq_some_iff.mp hs).1, hs], hn, hj⟩
      rcases List.mem_append.mp hx with hx | hx
      · exact old x hx
      · simp only [List.mem_singleton] at hx; subst hx
        have fresh : (x.store = h.stores.length ∧ ∃ s, stores = [s] ∧ x.idx = List.range s.length) →
            ∃ s, (h.stores ++ stores)[x.store]? = some s ∧ x.idx.Nodup ∧ ∀ j ∈ x.idx, j < s.length := by
          rintro ⟨h1, s, rfl, h2⟩
          refine ⟨s, by rw [h1]; simp, ?_, ?_⟩
          · rw [h2]; exact List.nodup_range
          · rw [h2]; intro j hj; simpa using hj
        cases op with
        | slice a start stop st =>
          obtain ⟨h0, src, hsrc, e1, e2, _⟩ := hop
          obtain ⟨s, hs, hn, hj⟩ := old src (List.mem_of_getElem? hsrc)
          exact ⟨s, by rw [e1]; exact hs, hn.sublist e2, fun j hj' => hj j (e2.subset hj')⟩
        | readOnlyView a =>
          obtain ⟨h0, src, hsrc, e1, e2, _⟩ := hop
          obtain ⟨s, hs, hn, hj⟩ := old src (List.mem_of_getElem? hsrc)
          exact ⟨s, by rw [e1]; exact hs, e2 ▸ hn, fun j hj' => hj j (e2 ▸ hj')⟩
        | new n => exact fresh hop
        | index a is => exact fresh hop
        | clone a => exact fresh hop
        | setInt a i x => simp [writesTo] at hw
        | setSlice a start stop st xs => simp [writesTo] at hw
        | setSliceFrom a start stop st b => simp [writesTo] at hw
        | setIndex a is xs => simp [writesTo] at hw

/-- The ghost families describe which arrays share a store. -/
def FamInv (hf : Heap V × List Nat) : Prop :=
  WF hf.1 ∧ hf.2.length = hf.1.arrays.length ∧ (∀ f ∈ hf.2, f < hf.2.length) ∧
  ∀ (a b : Nat) (x y : Arr) (f g : Nat), hf.1.arrays[a]? = some x → hf.1.arrays[b]? = some y → hf.2[a]? = some f → hf.2[b]? = some g →
    (x.store = y.store ↔ f = g)

theorem getElem?_snoc {α : Type} (l : List α) (x : α) (a : Nat) (y : α) (h : (l ++ [x])[a]? = some y) :
    (l[a]? = some y ∧ a < l.length) ∨ (a = l.length ∧ y = x) := by
  rcases Nat.lt_or_ge a l.length with hlt | hge
  · rw [List.getElem?_append_left hlt] at h; exact Or.inl ⟨h, hlt⟩
  · rw [List.getElem?_append_right hge] at h
    rcases Nat.eq_zero_or_pos (a - l.length) with h0 | h0
    · rw [h0] at h; simp at h; exact Or.inr ⟨by omega, h.symm⟩
    · rw [List.getElem?_eq_none (by simp; omega)] at h; cases h

theorem famStep_inv (hf : Heap V × List Nat) (hi : FamInv hf) (op : Op V) : FamInv (famStep imm none' hf op) := by
  obtain ⟨h, fam⟩ := hf
  obtain ⟨hwf, hlen, hlt, hiff⟩ := hi
  simp only at hwf hlen hlt hiff
  refine ⟨step_wf h hwf op, ?_⟩
  cases hw : writesTo op with
  | some w =>
    obtain ⟨h1, _, h3, _⟩ := step_write (imm := imm) (none' := none') h op w hw
    have hfam : (famStep imm none' (h, fam) op).2 = fam := by
      simp only [famStep]
    have harr : (famStep imm none' (h, fam) op).1.arrays = h.arrays := h1
    rw [hfam, harr]
    exact ⟨hlen, hlt, hiff⟩
  | none =>
    rcases step_create (imm := imm) (none' := none') h hwf op hw with ⟨e, he⟩ | ⟨stores, arr, he, hop⟩
    · have hfam : famStep imm none' (h, fam) op = (h, fam) := by simp only [famStep, he]
      rw [hfam]; exact ⟨hlen, hlt, hiff⟩
    · -- the new family number `n` satisfies what is needed
      have main : ∀ n, n < fam.length + 1 → (∀ (b : Nat) (y : Arr) (g : Nat), h.arrays[b]? = some y → fam[b]? = some g → (arr.store = y.store ↔ n = g)) →
          (fam ++ [n]).length = (h.arrays ++ [arr]).length ∧ (∀ f ∈ fam ++ [n], f < (fam ++ [n]).length) ∧
          ∀ (a b : Nat) (x y : Arr) (f g : Nat), (h.arrays ++ [arr])[a]? = some x → (h.arrays ++ [arr])[b]? = some y → (fam ++ [n])[a]? = some f →
            (fam ++ [n])[b]? = some g → (x.store = y.store ↔ f = g) := by
        intro n hn hnew
        refine ⟨by simp [hlen], ?_, ?_⟩
        · intro f hf'
          rcases List.mem_append.mp hf' with h' | h'
          · have := hlt f h'; simp; omega
          · simp at h'; subst h'; simpa using hn
        · intro a b x y f g hx hy hfa hgb
          rcases getElem?_snoc _ _ _ _ hx with ⟨hx', hax⟩ | ⟨rfl, rfl⟩ <;> rcases getElem?_snoc _ _ _ _ hy with ⟨hy', hby⟩ | ⟨rfl, rfl⟩
          · rw [List.getElem?_append_left (by omega)] at hfa hgb
            exact hiff a b x y f g hx' hy' hfa hgb
          · rw [List.getElem?_append_left (by omega)] at hfa
            rw [← hlen] at hgb; simp at hgb; subst hgb
            exact ⟨fun e => ((hnew a x f hx' hfa).mp e.symm).symm, fun e => ((hnew a x f hx' hfa).mpr e.symm).symm⟩
          · rw [List.getElem?_append_left (by omega)] at hgb
            rw [← hlen] at hfa; simp at hfa; subst hfa
            exact hnew b y g hy' hgb
          · rw [← hlen] at hfa hgb; simp at hfa hgb; subst hfa; subst hgb; simp
      have fresh : (arr.store = h.stores.length ∧ ∃ s, stores = [s] ∧ arr.idx = List.range s.length) →
          ∀ (b : Nat) (y : Arr) (g : Nat), h.arrays[b]? = some y → fam[b]? = some g → (arr.store = y.store ↔ fam.length = g) := by
        rintro ⟨h1, _⟩ b y g hy hg
        obtain ⟨s, hs, _⟩ := hwf y (List.mem_of_getElem? hy)
        have hys := (List.getElem?_eq_some_iff.mp hs).1
        have hgl := hlt g (List.mem_of_getElem? hg)
        constructor <;> intro e <;> omega
      have view : ∀ a src, h.arrays[a]? = some src → arr.store = src.store → fam.getD a 0 < fam.length + 1 ∧
          ∀ (b : Nat) (y : Arr) (g : Nat), h.arrays[b]? = some y → fam[b]? = some g → (arr.store = y.store ↔ fam.getD a 0 = g) := by
        intro a src hsrc hst
        have hal : a < fam.length := by rw [hlen]; exact (List.getElem?_eq_some_iff.mp hsrc).1
        have hga : fam[a]? = some (fam.getD a 0) := by simp [List.getD_eq_getElem?_getD, List.getElem?_eq_getElem hal]
        refine ⟨?_, fun b y g hy hg => ?_⟩
        · have := hlt _ (List.mem_of_getElem? hga); omega
        · rw [hst]; exact hiff a b src y _ g hsrc hy hga hg
      have hres : famStep imm none' (h, fam) op = (⟨h.stores ++ stores, h.arrays ++ [arr]⟩, fam ++ [match op with
        | .slice a _ _ _ => fam.getD a 0
        | .readOnlyView a => fam.getD a 0
        | _ => fam.length]) := by simp only [famStep, he]
      rw [hres]
      cases op with
      | slice a start stop st =>
        obtain ⟨_, src, hsrc, e1, _⟩ := hop
        exact main _ (view a src hsrc e1).1 (view a src hsrc e1).2
      | readOnlyView a =>
        obtain ⟨_, src, hsrc, e1, _⟩ := hop
        exact main _ (view a src hsrc e1).1 (view a src hsrc e1).2
      | new n => exact main fam.length (by omega) (fresh hop)
      | index a is => exact main fam.length (by omega) (fresh hop)
      | clone a => exact main fam.length (by omega) (fresh hop)
      | setInt a i x => simp [writesTo] at hw
      | setSlice a start stop st xs => simp [writesTo] at hw
      | setSliceFrom a start stop st b => simp [writesTo] at hw
      | setIndex a is xs => simp [writesTo] at hw

theorem fold_inv (hf : Heap V × List Nat) (hi : FamInv hf) (ops : List (Op V)) : FamInv (ops.foldl (famStep imm none') hf) := by
  induction ops generalizing hf with
  | nil => exact hi
  | cons op ops ih => exact ih _ (famStep_inv hf hi op)

theorem history_inv (ops : List (Op V)) : FamInv (history imm none' ops) :=
  fold_inv _ ⟨by intro a ha; simp [empty] at ha, rfl, by simp, by intro a b x y f g hx; simp [empty] at hx⟩ ops

/-- Reads of an array whose store is not written do not change. -/
theorem step_read_other (h : Heap V) (hwf : WF h) (op : Op V) (arr : Arr) (ha : arr ∈ h.arrays)
    (hne : ∀ w warr, writesTo op = some w → h.arrays[w]? = some warr → warr.store ≠ arr.store) (k : Nat) :
    (step imm none' h op).state.read arr k = h.read arr k := by
  have hstore : (step imm none' h op).state.stores[arr.store]? = h.stores[arr.store]? := by
    cases hw : writesTo op with
    | some w => exact (step_write h op w hw).2.2.2 _ fun x hx => (hne w x hw hx).symm
    | none =>
      rcases step_create (imm := imm) (none' := none') h hwf op hw with ⟨e, he⟩ | ⟨stores, b, he, _⟩
      · rw [he]
      · rw [he]
        obtain ⟨s, hs, _⟩ := hwf arr ha
        simp only [List.getElem?_append_left (List.getElem?_eq_some_iff.mp hs).1]
  simp only [Heap.read, Heap.store, List.getD_eq_getElem?_getD, hstore]

/-! ### The property -/

/-- **C35 (views share).** After any history, take a slice `b` of array `a`. Then, whatever is done afterwards - writes through `a`, through `b` or
through anything else - `b` always reads the same as `a` at the selected positions. The same for a read-only view. -/
theorem C35_views_share (before after : List (Op V)) (a : Nat) (start stop : Option Int) (st : Nat) (hst : 1 ≤ st) (arr : Arr)
    (ha : (history imm none' before).1.arrays[a]? = some arr) :
    ∃ o, step imm none' (history imm none' before).1 (.slice a start stop st) = o ∧ ∃ b, o.result = .ok (some b) ∧
      ∃ brr, (run imm none' o.state after).arrays[a]? = some arr ∧ (run imm none' o.state after).arrays[b]? = some brr ∧
        brr.idx.length = (slicePositions arr.idx.length start stop st).length ∧
        ∀ (k p : Nat), (slicePositions arr.idx.length start stop st)[k]? = some p →
          (run imm none' o.state after).read brr k = (run imm none' o.state after).read arr p ∧ ((run imm none' o.state after).read arr p).isSome := by
  set h := (history imm none' before).1 with hh
  have hwf : WF h := (history_inv before).1
  refine ⟨_, rfl, h.arrays.length, ?_, ⟨arr.store, (slicePositions arr.idx.length start stop st).filterMap fun p => arr.idx[p]?, arr.ro⟩, ?_, ?_, ?_, ?_⟩
  · simp only [step, ha, if_neg (show st ≠ 0 by omega)]
  · apply run_arrays
    simp only [step, ha, if_neg (show st ≠ 0 by omega)]
    rw [List.getElem?_append_left (List.getElem?_eq_some_iff.mp ha).1, ha]
  · apply run_arrays
    simp only [step, ha, if_neg (show st ≠ 0 by omega)]
    simp
  · exact filterMap_idx_length _ _ fun p hp => slicePositions_lt _ _ _ _ _ hp
  · intro k p hk
    have hp : p < arr.idx.length := slicePositions_lt _ _ _ _ _ (List.mem_of_getElem? hk)
    have hwf2 : WF (run imm none' (step imm none' h (.slice a start stop st)).state after) := by
      have : ∀ (ops : List (Op V)) (h : Heap V), WF h → WF (run imm none' h ops) := by
        intro ops
        induction ops with
        | nil => exact fun _ h => h
        | cons op ops ih => exact fun h hw => ih _ (step_wf h hw op)
      exact this _ _ (step_wf h hwf _)
    have hmem : arr ∈ (run imm none' (step imm none' h (.slice a start stop st)).state after).arrays := by
      apply List.mem_of_getElem? (i := a)
      apply run_arrays
      simp only [step, ha, if_neg (show st ≠ 0 by omega)]
      rw [List.getElem?_append_left (List.getElem?_eq_some_iff.mp ha).1, ha]
    refine ⟨?_, read_isSome hwf2 hmem p hp⟩
    simp only [Heap.read, Heap.store]
    rw [filterMap_idx _ _ (fun p hp => slicePositions_lt _ _ _ _ _ hp), hk]
    rfl

/-- **C35 (read-only view shares).** -/
theorem C35_read_only_view_shares (before after : List (Op V)) (a : Nat) (arr : Arr)
    (ha : (history imm none' before).1.arrays[a]? = some arr) :
    ∃ o, step imm none' (history imm none' before).1 (.readOnlyView a) = o ∧ ∃ b, o.result = .ok (some b) ∧
      ∃ brr, (run imm none' o.state after).arrays[b]? = some brr ∧ brr.ro = true ∧ brr.idx.length = arr.idx.length ∧
        ∀ k : Nat, (run imm none' o.state after).read brr k = (run imm none' o.state after).read arr k := by
  refine ⟨_, rfl, (history imm none' before).1.arrays.length, ?_, ⟨arr.store, arr.idx, true⟩, ?_, rfl, rfl, fun k => rfl⟩
  · simp only [step, ha]
  · apply run_arrays
    simp only [step, ha]
    simp

/-- **C35 (writes).** After any history, `a[i] = x` on a writable array with `i` in range stores `as_immutable(x)` at that position of `a` and
changes no other position of `a`. -/
theorem C35_write (before : List (Op V)) (w : Nat) (arr : Arr) (ha : (history imm none' before).1.arrays[w]? = some arr) (hro : arr.ro = false)
    (i : Int) (p : Nat) (hi : normIndex arr.idx.length i = some p) (x v : V) (hx : imm x = some v) :
    ∃ h', step imm none' (history imm none' before).1 (.setInt w i x) = ⟨h', .ok none⟩ ∧
      ∀ k, h'.read arr k = if k = p then some v else (history imm none' before).1.read arr k := by
  set h := (history imm none' before).1
  have hwf : WF h := (history_inv before).1
  have hp := normIndex_lt hi
  obtain ⟨s, hs, hn, hj⟩ := hwf arr (List.mem_of_getElem? ha)
  refine ⟨h.write arr.store arr.idx[p] v, ?_, fun k => ?_⟩
  · simp only [step, ha, hro, hi, Option.bind_some, List.getElem?_eq_getElem hp, writeLoop, hx]
    rfl
  · have hst : (h.write arr.store arr.idx[p] v).store arr = s.set arr.idx[p] v := by
      simp [Heap.store, Heap.write, List.getD_eq_getElem?_getD, hs]
    have hst0 : h.store arr = s := by simp [Heap.store, List.getD_eq_getElem?_getD, hs]
    simp only [Heap.read, hst, hst0]
    by_cases hk : k = p
    · subst hk
      have := hj _ (List.getElem_mem hp)
      simp [List.getElem?_eq_getElem hp, this]
    · rw [if_neg hk]
      rcases Nat.lt_or_ge k arr.idx.length with hkl | hkl
      · rw [List.getElem?_eq_getElem hkl]
        have hne : arr.idx[p] ≠ arr.idx[k] := fun e => hk ((List.getElem_inj hn).mp e).symm
        simp [List.getElem?_set_ne hne]
      · rw [List.getElem?_eq_none hkl]; rfl

/-- Writing a list of values one after the other: the last value written to a place stays. -/
theorem foldl_set (ts : List (Nat × V)) (l : List V) (j : Nat) :
    (∀ (q : Nat) (v : V), ts[q]? = some (j, v) → (∀ q' : Nat, q < q' → ∀ w : V, ts[q']? ≠ some (j, w)) → j < l.length →
      (ts.foldl (fun l t => l.set t.1 t.2) l)[j]? = some v) ∧
    ((∀ (q : Nat) (v : V), ts[q]? ≠ some (j, v)) → (ts.foldl (fun l t => l.set t.1 t.2) l)[j]? = l[j]?) := by
  induction ts generalizing l with
  | nil => exact ⟨fun q v h => by simp at h, fun _ => rfl⟩
  | cons t ts ih =>
    obtain ⟨i1, i2⟩ := ih (l.set t.1 t.2)
    constructor
    · intro q v hq hlast hj
      rw [List.foldl_cons]
      cases q with
      | zero =>
        simp only [List.getElem?_cons_zero, Option.some.injEq] at hq
        subst hq
        rw [i2 fun q w => hlast (q + 1) (by omega) w]
        simp [hj]
      | succ q =>
        exact i1 q v (by simpa using hq) (fun q' h w => hlast (q' + 1) (by omega) w) (by simpa using hj)
    · intro hno
      rw [List.foldl_cons, i2 fun q v => hno (q + 1) v]
      have : t.1 ≠ j := fun e => hno 0 t.2 (by simp [← e])
      rw [List.getElem?_set_ne this]

theorem writeLoop_ok (h : Heap V) (s : Nat) (js : List Nat) (xs vs : List V) (hx : xs.mapM imm = some vs) (hl : js.length = xs.length) :
    ∃ h', writeLoop imm h s (js.zip xs) = ⟨h', .ok ()⟩ ∧ h'.arrays = h.arrays ∧
      ∀ l, h.stores[s]? = some l → h'.stores[s]? = some ((js.zip vs).foldl (fun l t => l.set t.1 t.2) l) := by
  induction js generalizing h xs vs with
  | nil => exact ⟨h, rfl, rfl, fun l hl => by simpa using hl⟩
  | cons j js ih =>
    cases xs with
    | nil => simp at hl
    | cons x xs =>
      rw [List.mapM_cons] at hx
      cases hv : imm x with
      | none => simp [hv] at hx
      | some v =>
        cases hvs : xs.mapM imm with
        | none => simp [hv, hvs] at hx
        | some ws =>
          simp only [hv, hvs, Option.pure_def, Option.bind_eq_bind, Option.bind_some, Option.some.injEq] at hx
          subst hx
          obtain ⟨h', h1, h2, h3⟩ := ih (h.write s j v) xs ws hvs (by simpa using hl)
          refine ⟨h', by simp only [List.zip_cons_cons, writeLoop, hv]; exact h1, h2, fun l hl => ?_⟩
          rw [List.zip_cons_cons, List.foldl_cons]
          apply h3
          simp [Heap.write, hl]

theorem mapM_length {f : V → Option V} {xs vs : List V} (h : xs.mapM f = some vs) : vs.length = xs.length := by
  induction xs generalizing vs with
  | nil => simp at h; simp [h]
  | cons x xs ih =>
    rw [List.mapM_cons] at h
    cases hx : f x with
    | none => simp [hx] at h
    | some v =>
      cases hxs : xs.mapM f with
      | none => simp [hx, hxs] at h
      | some ws =>
        simp only [hx, hxs, Option.pure_def, Option.bind_eq_bind, Option.bind_some, Option.some.injEq] at h
        subst h; simp [ih hxs]

/-- Writing many values into an array of a well formed heap. -/
theorem setMany_ok (h : Heap V) (hwf : WF h) (arr : Arr) (ha : arr ∈ h.arrays) (hro : arr.ro = false) (pos : List Nat) (hpos : ∀ p ∈ pos, p < arr.idx.length)
    (xs vs : List V) (hx : xs.mapM imm = some vs) (hl : xs.length = pos.length) :
    ∃ h', setMany imm h arr pos xs = ⟨h', .ok ()⟩ ∧ h'.arrays = h.arrays ∧
      (∀ q k : Nat, pos[q]? = some k → (∀ q' : Nat, q < q' → pos[q']? ≠ some k) → h'.read arr k = vs[q]?) ∧
      ∀ k, k ∉ pos → h'.read arr k = h.read arr k := by
  obtain ⟨s, hs, hn, hj⟩ := hwf arr ha
  have htl : (pos.filterMap fun p => arr.idx[p]?).length = pos.length := filterMap_idx_length _ _ hpos
  obtain ⟨h', h1, h2, h3⟩ := writeLoop_ok h arr.store (pos.filterMap fun p => arr.idx[p]?) xs vs hx (by omega)
  have hvl := mapM_length hx
  have hst : h'.store arr = ((pos.filterMap fun p => arr.idx[p]?).zip vs).foldl (fun l t => l.set t.1 t.2) s := by
    simp [Heap.store, List.getD_eq_getElem?_getD, h3 s hs]
  have hst0 : h.store arr = s := by simp [Heap.store, List.getD_eq_getElem?_getD, hs]
  have hz : ∀ (q j : Nat) (v : V), ((pos.filterMap fun p => arr.idx[p]?).zip vs)[q]? = some (j, v) ↔ (∃ p, pos[q]? = some p ∧ arr.idx[p]? = some j) ∧ vs[q]? = some v := by
    intro q j v
    rw [List.getElem?_zip_eq_some, filterMap_idx _ _ hpos]
    constructor
    · rintro ⟨h4, h5⟩
      obtain ⟨p, hp, hpj⟩ := Option.bind_eq_some_iff.mp h4
      exact ⟨⟨p, hp, hpj⟩, h5⟩
    · rintro ⟨⟨p, hp, hpj⟩, h5⟩
      exact ⟨Option.bind_eq_some_iff.mpr ⟨p, hp, hpj⟩, h5⟩
  have hinj : ∀ p k j : Nat, arr.idx[p]? = some j → arr.idx[k]? = some j → p = k := by
    intro p k j h4 h5
    obtain ⟨a1, e1⟩ := List.getElem?_eq_some_iff.mp h4
    obtain ⟨a2, e2⟩ := List.getElem?_eq_some_iff.mp h5
    exact (List.getElem_inj hn).mp (e1.trans e2.symm)
  refine ⟨h', ?_, h2, ?_, ?_⟩
  · simp only [setMany, hro, Bool.false_eq_true, if_false]
    rw [if_neg (by omega)]
    exact h1
  · intro q k hq hlast
    have hk := hpos k (List.mem_of_getElem? hq)
    have hq' : q < pos.length := (List.getElem?_eq_some_iff.mp hq).1
    have hvq : vs[q]? = some vs[q] := List.getElem?_eq_getElem (by omega)
    simp only [Heap.read, hst, List.getElem?_eq_getElem hk, Option.bind_eq_bind, Option.bind_some]
    rw [(foldl_set _ s arr.idx[k]).1 q vs[q] ((hz _ _ _).mpr ⟨⟨k, hq, List.getElem?_eq_getElem hk⟩, hvq⟩) (fun q' hqq w hw => ?_) (hj _ (List.getElem_mem hk)), hvq]
    obtain ⟨⟨p, hp, hpj⟩, -⟩ := (hz _ _ _).mp hw
    have := hinj p k _ hpj (List.getElem?_eq_getElem hk)
    subst this
    exact hlast q' hqq hp
  · intro k hk
    simp only [Heap.read, hst, hst0]
    rcases Nat.lt_or_ge k arr.idx.length with hkl | hkl
    · simp only [List.getElem?_eq_getElem hkl, Option.bind_eq_bind, Option.bind_some]
      apply (foldl_set _ s arr.idx[k]).2
      intro q v hw
      obtain ⟨⟨p, hp, hpj⟩, -⟩ := (hz _ _ _).mp hw
      have := hinj p k _ hpj (List.getElem?_eq_getElem hkl)
      subst this
      exact hk (List.mem_of_getElem? hp)
    · rw [List.getElem?_eq_none hkl]; rfl

/-- The positions of an array which an assignment to a slice or to a list of indices selects; `none` if an index is out of range. -/
def selected (n : Nat) : Op V → Option (Nat × List Nat × List V)
  | .setSlice a start stop st xs => if st = 0 then none else some (a, slicePositions n start stop st, xs)
  | .setIndex a is xs => (is.mapM (normIndex n)).map fun ps => (a, ps, xs)
  | _ => none

/-- **C35 (writing many).** After any history, `a[start:stop:step] = xs` and `a[[i, j, ...]] = xs` on a writable array, with as many values as there are selected positions: each selected
position holds `as_immutable` of the last value assigned to it, and no other position of `a` changes. With another number of values: TypeError, nothing changes. An index out of range:
IndexError, nothing changes. -/
theorem C35_write_many (before : List (Op V)) (w : Nat) (arr : Arr) (ha : (history imm none' before).1.arrays[w]? = some arr) (hro : arr.ro = false) :
    (∀ op pos xs vs, selected arr.idx.length op = some (w, pos, xs) → xs.mapM imm = some vs → xs.length = pos.length →
      ∃ h', step imm none' (history imm none' before).1 op = ⟨h', .ok none⟩ ∧
        (∀ q k : Nat, pos[q]? = some k → (∀ q' : Nat, q < q' → pos[q']? ≠ some k) → h'.read arr k = vs[q]?) ∧
        ∀ k, k ∉ pos → h'.read arr k = (history imm none' before).1.read arr k) ∧
    (∀ op pos xs, selected arr.idx.length op = some (w, pos, xs) → xs.length ≠ pos.length →
      step imm none' (history imm none' before).1 op = ⟨(history imm none' before).1, .error .typeError⟩) ∧
    (∀ is xs, is.mapM (normIndex arr.idx.length) = none →
      step imm none' (history imm none' before).1 (.setIndex w is xs) = ⟨(history imm none' before).1, .error .indexError⟩) := by
  set h := (history imm none' before).1
  have hwf : WF h := (history_inv before).1
  have hmem := List.mem_of_getElem? ha
  have key : ∀ op pos xs, selected arr.idx.length op = some (w, pos, xs) → (∀ p ∈ pos, p < arr.idx.length) ∧
      step imm none' h op = ⟨(setMany imm h arr pos xs).state, (setMany imm h arr pos xs).result.map fun _ => none⟩ := by
    intro op pos xs hsel
    cases op with
    | setSlice a start stop st ys =>
      simp only [selected] at hsel
      split at hsel
      · cases hsel
      · rename_i hst
        simp only [Option.some.injEq, Prod.mk.injEq] at hsel
        obtain ⟨rfl, rfl, rfl⟩ := hsel
        refine ⟨fun p hp => slicePositions_lt _ _ _ _ _ hp, ?_⟩
        simp only [step, ha, hst, if_false]
    | setIndex a is ys =>
      simp only [selected, Option.map_eq_some_iff, Prod.mk.injEq] at hsel
      obtain ⟨ps, hps, rfl, rfl, rfl⟩ := hsel
      refine ⟨mapM_normIndex_lt hps, ?_⟩
      simp only [step, ha, hro, hps, Bool.false_eq_true, if_false]
    | _ => simp [selected] at hsel
  refine ⟨fun op pos xs vs hsel hx hl => ?_, fun op pos xs hsel hl => ?_, fun is xs his => ?_⟩
  · obtain ⟨hpos, hstep⟩ := key op pos xs hsel
    obtain ⟨h', h1, -, h3, h4⟩ := setMany_ok h hwf arr hmem hro pos hpos xs vs hx hl
    exact ⟨h', by rw [hstep, h1]; rfl, h3, h4⟩
  · obtain ⟨hpos, hstep⟩ := key op pos xs hsel
    have htl : (pos.filterMap fun p => arr.idx[p]?).length = pos.length := filterMap_idx_length _ _ hpos
    have : setMany imm h arr pos xs = ⟨h, .error .typeError⟩ := by
      simp only [setMany, hro, Bool.false_eq_true, if_false]
      rw [if_pos (by omega)]
    rw [hstep, this]; rfl
  · simp only [step, ha, hro, his, Bool.false_eq_true, if_false]

/-- Assignments to a slice with step 2, and to a list of indices with a negative one and a repetition. -/
example : selected 4 (.setSlice 0 (some 1) none 2 [7, 8] : Op Nat) = some (0, [1, 3], [7, 8]) ∧
    selected 4 (.setIndex 0 [-1, 0, 3] [7, 8, 9] : Op Nat) = some (0, [3, 0, 3], [7, 8, 9]) ∧
    (let h := (history some 0 [.new 4, .setIndex 0 [-1, 0, 3] [7, 8, 9]]).1
     (List.range 4).map (fun k => h.read ⟨0, [0, 1, 2, 3], false⟩ k) = [some 8, some 0, some 0, some 9]) := by decide

theorem copyLoop_eq (h : Heap V) (s : Nat) (src : Arr) (hne : src.store ≠ s) (js ks : List Nat) (xs : List V) (hr : ks.map (h.read src) = xs.map some) :
    copyLoop imm h s src (js.zip ks) = writeLoop imm h s (js.zip xs) := by
  induction js generalizing h ks xs with
  | nil => simp [copyLoop, writeLoop]
  | cons j js ih =>
    cases ks with
    | nil => simp at hr; subst hr; simp [copyLoop, writeLoop]
    | cons k ks =>
      cases xs with
      | nil => simp at hr
      | cons x xs =>
        simp only [List.map_cons, List.cons.injEq] at hr
        simp only [List.zip_cons_cons, copyLoop, writeLoop, hr.1, Option.bind_some]
        cases imm x with
        | none => rfl
        | some v =>
          apply ih
          rw [← hr.2]
          apply List.map_congr_left
          intro q _
          simp only [Heap.read, Heap.store, List.getD_eq_getElem?_getD, write_other h s j v src.store hne]

/-- **C35 (copying).** After any history, `a[start:stop:step] = b` for an array `b` which does not share the storage of `a` and has as many elements as there are selected positions: these
positions of `a` hold what `b` held (made immutable), and no other position of `a` changes. -/
theorem C35_write_from (before : List (Op V)) (w b : Nat) (arr brr : Arr) (ha : (history imm none' before).1.arrays[w]? = some arr)
    (hb : (history imm none' before).1.arrays[b]? = some brr) (hro : arr.ro = false) (f : Nat) (hf : (history imm none' before).2[w]? = some f)
    (hfb : (history imm none' before).2[b]? ≠ some f) (start stop : Option Int) (st : Nat) (hst : 1 ≤ st)
    (hl : brr.idx.length = (slicePositions arr.idx.length start stop st).length)
    (him : ∀ k x, (history imm none' before).1.read brr k = some x → imm x = some x) :
    ∃ h', step imm none' (history imm none' before).1 (.setSliceFrom w start stop st b) = ⟨h', .ok none⟩ ∧
      (∀ q k : Nat, (slicePositions arr.idx.length start stop st)[q]? = some k → h'.read arr k = (history imm none' before).1.read brr q) ∧
      ∀ k, k ∉ slicePositions arr.idx.length start stop st → h'.read arr k = (history imm none' before).1.read arr k := by
  obtain ⟨hwf, hlen, -, hiff⟩ := history_inv (imm := imm) (none' := none') before
  set h := (history imm none' before).1
  have hbl : b < (history imm none' before).2.length := by rw [hlen]; exact (List.getElem?_eq_some_iff.mp hb).1
  have hne : brr.store ≠ arr.store := by
    intro e
    apply hfb
    rw [List.getElem?_eq_getElem hbl] at hfb ⊢
    have := (hiff b w brr arr ((history imm none' before).2[b]) f hb ha (List.getElem?_eq_getElem hbl) hf).mp e
    rw [this]
  -- what `b` holds
  have hsome : ∀ k ∈ List.range brr.idx.length, (h.read brr k).isSome := fun k hk => read_isSome hwf (List.mem_of_getElem? hb) k (List.mem_range.mp hk)
  let xs := (List.range brr.idx.length).filterMap (h.read brr)
  have hxl : xs.length = brr.idx.length := by simp only [xs]; rw [filterMap_length_of_isSome _ _ hsome, List.length_range]
  have hxq : ∀ q, q < brr.idx.length → xs[q]? = h.read brr q := by
    intro q hq
    simp only [xs]
    rw [filterMap_getElem _ _ hsome, List.getElem?_range hq]; rfl
  have hmap : (List.range brr.idx.length).map (h.read brr) = xs.map some := by
    apply List.ext_getElem?
    intro q
    rcases Nat.lt_or_ge q brr.idx.length with hq | hq
    · rw [List.getElem?_map, List.getElem?_map, List.getElem?_range hq, hxq q hq]
      obtain ⟨x, hx⟩ := Option.isSome_iff_exists.mp (hsome q (List.mem_range.mpr hq))
      simp [hx]
    · rw [List.getElem?_eq_none (by simpa using hq), List.getElem?_eq_none (by simp; omega)]
  have himm : ∀ ys : List V, (∀ x ∈ ys, imm x = some x) → ys.mapM imm = some ys := by
    intro ys hys
    induction ys with
    | nil => rfl
    | cons y ys ih =>
      rw [List.mapM_cons, hys y (by simp), ih fun x hx => hys x (List.mem_cons_of_mem _ hx)]; rfl
  have hxm : xs.mapM imm = some xs := himm xs fun x hx => by
    obtain ⟨k, -, hk⟩ := List.mem_filterMap.mp hx
    exact him k x hk
  obtain ⟨h', h1, -, h3, h4⟩ := setMany_ok h hwf arr (List.mem_of_getElem? ha) hro (slicePositions arr.idx.length start stop st)
    (fun p hp => slicePositions_lt _ _ _ _ _ hp) xs xs hxm (by omega)
  have hnd : (slicePositions arr.idx.length start stop st).Nodup := by
    unfold slicePositions; exact List.nodup_range.filter _
  refine ⟨h', ?_, fun q k hq => ?_, h4⟩
  · have htl := filterMap_idx_length arr.idx (slicePositions arr.idx.length start stop st) (fun p hp => slicePositions_lt _ _ _ _ _ hp)
    simp only [step, ha, hb, hro]
    rw [if_neg (by simp; omega), if_neg (by omega), copyLoop_eq h arr.store brr hne _ _ xs hmap]
    simp only [setMany, hro, Bool.false_eq_true, if_false] at h1
    rw [if_neg (by omega)] at h1
    rw [h1]; rfl
  · have hq' := (List.getElem?_eq_some_iff.mp hq).1
    rw [h3 q k hq fun q' hqq hq2 => ?_, hxq q (by omega)]
    obtain ⟨a1, e1⟩ := List.getElem?_eq_some_iff.mp hq
    obtain ⟨a2, e2⟩ := List.getElem?_eq_some_iff.mp hq2
    have := (List.getElem_inj hnd).mp (e1.trans e2.symm)
    omega

/-- Two arrays; part of the first is replaced by the second. -/
example : let hf := history some 0 [.new 4, .new 2, .setSlice 1 none none 1 [5, 6]]
    hf.2 = [0, 1] ∧ (slicePositions 4 (some 1) none 2).length = 2 ∧
    (let h' := (step some 0 hf.1 (.setSliceFrom 0 (some 1) none 2 1)).state
     (List.range 4).map (fun k => h'.read ⟨0, [0, 1, 2, 3], false⟩ k) = [some 0, some 5, some 0, some 6]) := by decide

/-- **C35 (nobody else).** After any history, an operation changes what array `a` reads only if it is a write through an array of the same family. -/
theorem C35_no_other_effect (before : List (Op V)) (op : Op V) (a : Nat) (arr : Arr) (ha : (history imm none' before).1.arrays[a]? = some arr)
    (f : Nat) (hf : (history imm none' before).2[a]? = some f)
    (hop : ∀ w, writesTo op = some w → (history imm none' before).2[w]? ≠ some f) (k : Nat) :
    (step imm none' (history imm none' before).1 op).state.read arr k = (history imm none' before).1.read arr k := by
  obtain ⟨hwf, hlen, _, hiff⟩ := history_inv (imm := imm) (none' := none') before
  apply step_read_other _ hwf op arr (List.mem_of_getElem? ha)
  intro w warr hw hwarr heq
  have hwl : w < (history imm none' before).2.length := by rw [hlen]; exact (List.getElem?_eq_some_iff.mp hwarr).1
  have hg := List.getElem?_eq_getElem hwl
  have := (hiff w a warr arr _ f hwarr ha hg hf).mp heq
  exact hop w hw (by rw [hg, this])

/-- **C35 (copies).** A clone (or an array made by indexing with a list of positions) reads what the source reads at that time; and whatever is
done afterwards, if nothing is written through it or through arrays of its family it still reads that. -/
theorem C35_clone_independent (before : List (Op V)) (a : Nat) (arr : Arr) (ha : (history imm none' before).1.arrays[a]? = some arr) :
    ∃ b brr, (step imm none' (history imm none' before).1 (.clone a)).result = .ok (some b) ∧
      (history imm none' (before ++ [.clone a])).1.arrays[b]? = some brr ∧ brr.idx.length = arr.idx.length ∧
      (history imm none' (before ++ [.clone a])).2[b]? = some b ∧ b = (history imm none' before).2.length ∧
      ∀ k, (history imm none' (before ++ [.clone a])).1.read brr k = (history imm none' before).1.read arr k := by
  obtain ⟨hwf, hlen, _, _⟩ := history_inv (imm := imm) (none' := none') before
  have hh : history imm none' (before ++ [.clone a]) = famStep imm none' (history imm none' before) (.clone a) := by
    simp [history, List.foldl_append]
  rw [hh]
  generalize history imm none' before = hf at *
  obtain ⟨h, fam⟩ := hf
  simp only at ha hwf hlen
  refine ⟨h.arrays.length, ⟨h.stores.length, List.range arr.idx.length, false⟩, by simp only [step, ha], ?_, by simp, ?_, hlen.symm, ?_⟩
  · simp only [famStep, step, ha]; simp
  · simp only [famStep, step, ha]; rw [← hlen]; simp
  · intro k
    simp only [famStep, step, ha]
    have hsome : ∀ p ∈ List.range arr.idx.length, (h.read arr p).isSome := fun p hp => read_isSome hwf (List.mem_of_getElem? ha) p (by simpa using hp)
    rw [Heap.read]
    simp only [Heap.store, List.getD_eq_getElem?_getD, List.getElem?_append_right (Nat.le_refl _), Nat.sub_self, List.getElem?_cons_zero, Option.getD_some,
      Option.bind_eq_bind]
    rcases Nat.lt_or_ge k arr.idx.length with hk | hk
    · rw [List.getElem?_range hk, Option.bind_some, filterMap_getElem _ _ hsome, List.getElem?_range hk]; rfl
    · rw [List.getElem?_eq_none (by simpa using hk), Heap.read, List.getElem?_eq_none hk]; rfl

theorem history_append (before after : List (Op V)) :
    history imm none' (before ++ after) = after.foldl (famStep imm none') (history imm none' before) := by
  simp [history, List.foldl_append]

/-- **C35 (histories without interference).** Over any history in which no write goes through an array of the family of `a`, `a` reads the same. -/
theorem C35_no_interference (before after : List (Op V)) (a : Nat) (arr : Arr) (ha : (history imm none' before).1.arrays[a]? = some arr)
    (f : Nat) (hf : (history imm none' before).2[a]? = some f)
    (hno : ∀ (pre : List (Op V)) (op : Op V) (post : List (Op V)), after = pre ++ op :: post → ∀ w, writesTo op = some w →
      (history imm none' (before ++ pre)).2[w]? ≠ some f) (k : Nat) :
    (history imm none' (before ++ after)).1.read arr k = (history imm none' before).1.read arr k := by
  induction after generalizing before with
  | nil => simp
  | cons op rest ih =>
    have h1 := C35_no_other_effect before op a arr ha f hf (by simpa using hno [] op rest rfl) k
    have hst : (history imm none' (before ++ [op])) = famStep imm none' (history imm none' before) op := by rw [history_append]; rfl
    have ha' : (history imm none' (before ++ [op])).1.arrays[a]? = some arr := by
      rw [hst]
      exact run_arrays (imm := imm) (none' := none') (history imm none' before).1 [op] a arr ha
    have hf' : (history imm none' (before ++ [op])).2[a]? = some f := by
      rw [hst]
      simp only [famStep]
      split
      · rw [List.getElem?_append_left (List.getElem?_eq_some_iff.mp hf).1, hf]
      · exact hf
    have h2 := ih (before ++ [op]) ha' hf' (by
      intro pre op' post hp w hw
      have := hno (op :: pre) op' post (by rw [hp]; rfl) w hw
      simpa using this)
    have hassoc : before ++ op :: rest = before ++ [op] ++ rest := by simp
    rw [hassoc, h2, hst]
    exact h1

/-- **C35 (read-only).** After any history, every write through a read-only array raises ValueError and changes nothing; the array stays read-only
for ever, and slices, read-only views and indexed copies of it are read-only. -/
theorem C35_read_only (before after : List (Op V)) (a : Nat) (arr : Arr) (ha : (history imm none' before).1.arrays[a]? = some arr) (hro : arr.ro = true) :
    (∀ op, writesTo op = some a → (∀ s t st b, op ≠ .setSliceFrom a s t st b) →
      step imm none' (history imm none' before).1 op = ⟨(history imm none' before).1, .error .valueError⟩) ∧
    (∀ s t st b, (history imm none' before).1.arrays[b]? ≠ none →
      step imm none' (history imm none' before).1 (.setSliceFrom a s t st b) = ⟨(history imm none' before).1, .error .valueError⟩) ∧
    (history imm none' (before ++ after)).1.arrays[a]? = some arr ∧
    (∀ op h' b, (op = .readOnlyView a ∨ (∃ s t st, op = .slice a s t st) ∨ ∃ is, op = .index a is) →
      step imm none' (history imm none' before).1 op = ⟨h', .ok (some b)⟩ → ∃ brr, h'.arrays[b]? = some brr ∧ brr.ro = true) := by
  have hfold : ∀ (ops : List (Op V)) (hf : Heap V × List Nat), (ops.foldl (famStep imm none') hf).1 = run imm none' hf.1 ops := by
    intro ops
    induction ops with
    | nil => intro hf; rfl
    | cons op ops ih => intro hf; rw [List.foldl_cons, ih]; rfl
  refine ⟨?_, ?_, ?_, ?_⟩
  · intro op hw hns
    cases op with
    | new n => simp [writesTo] at hw
    | slice a' start stop st => simp [writesTo] at hw
    | index a' is => simp [writesTo] at hw
    | readOnlyView a' => simp [writesTo] at hw
    | clone a' => simp [writesTo] at hw
    | setInt a' i x =>
      simp only [writesTo, Option.some.injEq] at hw; subst hw
      simp [step, ha, hro]
    | setSlice a' start stop st xs =>
      simp only [writesTo, Option.some.injEq] at hw; subst hw
      simp only [step, ha, setMany, hro]
      split <;> rfl
    | setSliceFrom a' start stop st b =>
      simp only [writesTo, Option.some.injEq] at hw; subst hw
      exact absurd rfl (hns _ _ _ _)
    | setIndex a' is xs =>
      simp only [writesTo, Option.some.injEq] at hw; subst hw
      simp [step, ha, hro]
  · intro s t st b hb
    obtain ⟨src, hsrc⟩ := Option.ne_none_iff_exists'.mp hb
    simp [step, ha, hsrc, hro]
  · rw [history_append, hfold]
    exact run_arrays _ _ _ _ ha
  · rintro op h' b (rfl | ⟨s, t, st, rfl⟩ | ⟨is, rfl⟩) he
    · simp only [step, ha, Outcome.mk.injEq, Except.ok.injEq, Option.some.injEq] at he
      obtain ⟨rfl, rfl⟩ := he
      exact ⟨⟨arr.store, arr.idx, true⟩, by simp, rfl⟩
    · simp only [step, ha] at he
      split at he
      · simp at he
      · simp only [Outcome.mk.injEq, Except.ok.injEq, Option.some.injEq] at he
        obtain ⟨rfl, rfl⟩ := he
        exact ⟨⟨arr.store, (slicePositions arr.idx.length s t st).filterMap fun p => arr.idx[p]?, arr.ro⟩, by simp, hro⟩
    · simp only [step, ha] at he
      split at he
      · simp at he
      · rename_i ps _
        simp only [Outcome.mk.injEq, Except.ok.injEq, Option.some.injEq] at he
        obtain ⟨rfl, rfl⟩ := he
        exact ⟨⟨(history imm none' before).1.stores.length, List.range ps.length, arr.ro⟩, by simp, hro⟩

/-- **C35 is violated by overlapping assignment**: in `a[1:] = a[:-1]` the right-hand side shares the storage and is read while it is overwritten,
so the first element is smeared over the array instead of the elements being shifted. -/
theorem C35_violated_overlapping_assignment :
    let ops : List (Op Nat) := [.new 4, .setSlice 0 none none 1 [1, 2, 3, 4], .slice 0 none (some (-1)) 1, .setSliceFrom 0 (some 1) none 1 1]
    let h := (history some 0 ops).1
    (List.range 4).map (fun k => h.read ⟨0, [0, 1, 2, 3], false⟩ k) = [some 1, some 1, some 1, some 1] := by decide

/-- A history with a view, a read-only view and a clone. -/
example : let ops : List (Op Nat) := [.new 4, .slice 0 (some 1) (some 3) 1, .readOnlyView 1, .clone 1, .setInt 1 0 7, .setInt 2 0 9]
    let r := history some 0 ops
    r.2 = [0, 0, 0, 3] ∧ r.1.arrays = [⟨0, [0, 1, 2, 3], false⟩, ⟨0, [1, 2], false⟩, ⟨0, [1, 2], true⟩, ⟨1, [0, 1], false⟩] ∧
      r.1.stores = [[0, 7, 0, 0], [0, 0]] := by decide

end EvoTorch.ObjectArray
