import Verif.Model.ObjectArrayMake
import Verif.Props.ObjectArray
import Mathlib.Data.List.Nodup
/-!
C124: the constructor, `repeat` and the numpy conversions of `ObjectArray` give the documented elements and share or copy as documented.
-/
namespace EvoTorch.ObjectArray
variable {V : Type} {imm : V → Option V} {none' : V}

/-- The elements of an array. -/
def elements (h : Heap V) (arr : Arr) : List V := (List.range arr.idx.length).filterMap (h.read arr)

/-! ### The constructor -/

/-- `ObjectArray(n)` and `ObjectArray([n])` have `n` elements, all `None`, in a memory of their own; other sizes are refused. Exactly one of the two arguments is needed. -/
theorem C124_new (h : Heap V) (n : Nat) :
    (∃ arr, newSized none' h (.int n) = ⟨⟨h.stores ++ [List.replicate n none'], h.arrays ++ [arr]⟩, .ok h.arrays.length⟩ ∧ length arr = n ∧ arr.ro = false ∧ arr.store = h.stores.length ∧
      elements ⟨h.stores ++ [List.replicate n none'], h.arrays ++ [arr]⟩ arr = List.replicate n none') ∧
    newSized none' h (.seq [n]) = newSized none' h (.int n) ∧ (∀ m : Int, m < 0 → (newSized none' h (.int m)).result = .error .runtimeError) ∧
    (∀ l : List Int, l.length ≠ 1 → newSized none' h (.seq l) = ⟨h, .error .valueError⟩) ∧ newSized none' h .nested = ⟨h, .error .valueError⟩ ∧
    (∀ s r, construct none' h (some s) (some r) = ⟨h, .error .valueError⟩) ∧ construct none' h none none = ⟨h, .error .valueError⟩ ∧
    (∀ s, construct none' h (some s) none = newSized none' h s) := by
  refine ⟨⟨⟨h.stores.length, List.range n, false⟩, ?_, by simp [length], rfl, rfl, ?_⟩, rfl, ?_, ?_, rfl, fun _ _ => rfl, rfl, fun _ => rfl⟩
  · have : ¬ ((n : Int) < 0) := by omega
    simp [newSized, this]
  · apply List.ext_getElem?
    intro i
    rw [elements, filterMap_getElem]
    · simp only [List.length_range]
      by_cases hi : i < n
      · simp [hi, Heap.read, Heap.store, List.getD_eq_getElem?_getD]
      · simp [hi, List.getElem?_eq_none (by simp; omega : (List.range n).length ≤ i)]
    · intro k hk
      simp only [List.length_range, List.mem_range] at hk
      simp [hk, Heap.read, Heap.store, List.getD_eq_getElem?_getD]
  · intro m hm
    simp [newSized, hm]
  · intro l hl
    match l with
    | [] => rfl
    | [a] => simp at hl
    | a :: b :: r => rfl

/-- A slice of an array: whatever is done later, it reads the same as the array at the selected positions. -/
theorem C124_slice_shares (before after : List (Op V)) (a : Nat) (start stop : Option Int) (st : Nat) (hst : 1 ≤ st) (arr : Arr) (ha : (history imm none' before).1.arrays[a]? = some arr) :
    ∃ brr h', construct none' (history imm none' before).1 none (some (some a, .slice start stop st)) = ⟨h', .ok (history imm none' before).1.arrays.length⟩ ∧
      (run imm none' h' after).arrays[(history imm none' before).1.arrays.length]? = some brr ∧ length brr = (slicePositions (length arr) start stop st).length ∧
      ∀ (k p : Nat), (slicePositions (length arr) start stop st)[k]? = some p → (run imm none' h' after).read brr k = (run imm none' h' after).read arr p ∧ ((run imm none' h' after).arrays[a]? = some arr) := by
  set h := (history imm none' before).1
  refine ⟨⟨arr.store, (slicePositions arr.idx.length start stop st).filterMap fun p => arr.idx[p]?, false⟩, { h with arrays := h.arrays ++ [⟨arr.store, (slicePositions arr.idx.length start stop st).filterMap fun p => arr.idx[p]?, false⟩] }, ?_, ?_, ?_, ?_⟩
  · simp only [construct, newSlice, Option.bind_some, ha]
    rw [if_neg (by omega)]
  · exact run_arrays _ _ _ _ (by simp)
  · exact filterMap_idx_length _ _ fun p hp => slicePositions_lt _ _ _ _ _ hp
  · intro k p hk
    refine ⟨?_, run_arrays _ _ _ _ ?_⟩
    · simp only [Heap.read, Heap.store]
      rw [filterMap_idx _ _ (fun p hp => slicePositions_lt _ _ _ _ _ hp)]
      unfold length at hk
      rw [hk]
      rfl
    · exact List.getElem?_append_left (List.getElem?_eq_some_iff.mp ha).1 ▸ ha

/-- Operations which write to no array made at or after a moment, and those which write to one array only. -/
def WritesOnly (P : Nat → Prop) (ops : List (Op V)) : Prop := ∀ op ∈ ops, ∀ w, writesTo op = some w → P w

theorem run_read (h : Heap V) (hwf : WF h) (arr : Arr) (ha : arr ∈ h.arrays) (P : Nat → Prop) (hP : ∀ w, P w → ∃ warr, h.arrays[w]? = some warr ∧ warr.store ≠ arr.store) (ops : List (Op V)) (hops : WritesOnly P ops) (k : Nat) :
    (run imm none' h ops).read arr k = h.read arr k := by
  induction ops generalizing h with
  | nil => rfl
  | cons op ops ih =>
    have hs := step_read_other (imm := imm) (none' := none') h hwf op arr ha (by
      intro w warr hw hwarr
      obtain ⟨x, hx, hne⟩ := hP w (hops op (by simp) w hw)
      rw [hwarr] at hx; cases hx; exact hne) k
    obtain ⟨l, hl⟩ := step_arrays (imm := imm) (none' := none') h op
    have := ih (step imm none' h op).state (step_wf h hwf op) (by rw [hl]; simp [ha]) (by
      intro w hw
      obtain ⟨x, hx, hne⟩ := hP w hw
      exact ⟨x, by rw [hl]; exact List.getElem?_append_left (List.getElem?_eq_some_iff.mp hx).1 ▸ hx, hne⟩) (fun o ho => hops o (by simp [ho]))
    rw [run, List.foldl_cons, ← run, this, hs]

/-- A selection of different positions of an array: it has the elements at those positions, and afterwards writes to the arrays which existed before do not show in it, and writes to it do not show in them. -/
theorem C124_selection_copies_partial (before after : List (Op V)) (a : Nat) (is : List Int) (ps : List Nat) (arr : Arr) (ha : (history imm none' before).1.arrays[a]? = some arr) (hps : is.mapM (normIndex (length arr)) = some ps) (hnd : ps.Nodup) :
    ∃ brr h', construct none' (history imm none' before).1 none (some (some a, .indices is)) = ⟨h', .ok (history imm none' before).1.arrays.length⟩ ∧
      h'.arrays = (history imm none' before).1.arrays ++ [brr] ∧ length brr = ps.length ∧ brr.ro = false ∧ (∀ k p : Nat, ps[k]? = some p → h'.read brr k = (history imm none' before).1.read arr p ∧ (h'.read brr k).isSome) ∧
      (WritesOnly (· < (history imm none' before).1.arrays.length) after → ∀ k, (run imm none' h' after).read brr k = h'.read brr k) ∧
      (WritesOnly (· = (history imm none' before).1.arrays.length) after → ∀ crr ∈ (history imm none' before).1.arrays, ∀ k, (run imm none' h' after).read crr k = (history imm none' before).1.read crr k) := by
  have hwf : WF (history imm none' before).1 := (history_inv before).1
  set h := (history imm none' before).1
  obtain ⟨s, hs, hn, hj⟩ := hwf arr (List.mem_of_getElem? ha)
  have hstore : h.store arr = s := by simp [Heap.store, List.getD_eq_getElem?_getD, hs]
  have hlt := mapM_normIndex_lt hps
  let brr : Arr := ⟨h.stores.length, ps.filterMap fun p => arr.idx[p]?, false⟩
  let h' : Heap V := ⟨h.stores ++ [h.store arr], h.arrays ++ [brr]⟩
  have hread : ∀ k p : Nat, ps[k]? = some p → h'.read brr k = h.read arr p := by
    intro k p hk
    simp only [Heap.read, Heap.store, h', brr]
    rw [filterMap_idx _ _ hlt, hk]
    simp [List.getD_eq_getElem?_getD]
  have hwf' : WF h' := by
    intro crr hc
    rcases List.mem_append.1 hc with hc | hc
    · obtain ⟨t, ht, h1, h2⟩ := hwf crr hc
      exact ⟨t, by rw [List.getElem?_append_left (List.getElem?_eq_some_iff.mp ht).1]; exact ht, h1, h2⟩
    · rw [List.mem_singleton] at hc
      subst hc
      refine ⟨s, (by show (h.stores ++ [h.store arr])[h.stores.length]? = some s; rw [hstore]; simp), ?_, ?_⟩
      · refine List.Nodup.filterMap ?_ hnd
        intro p q j hp hq
        obtain ⟨h1, e1⟩ := List.getElem?_eq_some_iff.mp hp
        obtain ⟨h2, e2⟩ := List.getElem?_eq_some_iff.mp hq
        exact (hn.getElem_inj_iff).1 (e1.trans e2.symm)
      · intro j hj'
        obtain ⟨p, _, hp⟩ := List.mem_filterMap.1 hj'
        exact hj j (List.mem_of_getElem? hp)
  have hold : ∀ crr ∈ h.arrays, crr.store < h.stores.length := by
    intro crr hc
    obtain ⟨t, ht, _⟩ := hwf crr hc
    exact (List.getElem?_eq_some_iff.mp ht).1
  refine ⟨brr, h', ?_, rfl, filterMap_idx_length _ _ hlt, rfl, ?_, ?_, ?_⟩
  · unfold length at hps
    simp only [construct, newSlice, Option.bind_some, ha, hps]
    rfl
  · intro k p hk
    refine ⟨hread k p hk, ?_⟩
    rw [hread k p hk]
    exact read_isSome hwf (List.mem_of_getElem? ha) p (hlt p (List.mem_of_getElem? hk))
  · intro hw k
    refine run_read h' hwf' brr (by simp [h']) _ ?_ after hw k
    intro w hw
    have hmem : h.arrays[w] ∈ h.arrays := List.getElem_mem hw
    exact ⟨h.arrays[w], by simp [h', List.getElem?_append_left hw], by have := hold _ hmem; simp only [brr]; omega⟩
  · intro hw crr hc k
    rw [run_read h' hwf' crr (by simp [h', hc]) _ ?_ after hw k]
    · have := hold crr hc
      simp only [Heap.read, Heap.store, h', List.getD_eq_getElem?_getD, List.getElem?_append_left this]
    · rintro w rfl
      exact ⟨brr, by simp [h'], by have := hold crr hc; simp only [brr]; omega⟩

/-- Not so if a position is selected twice: the elements of the selection are then one and the same, and a write to the first changes the second. -/
theorem C124_violated_duplicates :
    let h := (history some 0 [.new 2, .setSlice 0 none none 1 [1, 2]]).1
    let o := construct 0 h none (some (some 0, .indices [1, 1]))
    o.state.arrays[1]?.map (elements o.state) = some [2, 2] ∧ (run some 0 o.state [.setInt 1 0 7]).arrays[1]?.map (elements (run some 0 o.state [.setInt 1 0 7])) = some [7, 7] := by decide

/-- A slice made with the constructor of a read-only array is not read-only, and a write to it changes the read-only array. -/
theorem C124_violated_read_only :
    let h := (history some 0 [.new 1, .readOnlyView 0]).1
    let o := construct 0 h none (some (some 1, .slice none none 1))
    (∃ ro, h.arrays[1]? = some ro ∧ ro.ro = true ∧ h.read ro 0 = some 0 ∧ (step some 0 o.state (.setInt 1 0 7)).result = .error .valueError ∧
      (step some 0 o.state (.setInt 2 0 7)).result = .ok none ∧ (step some 0 o.state (.setInt 2 0 7)).state.read ro 0 = some 7) := by
  refine ⟨⟨0, [0], true⟩, ?_⟩
  decide

/-! ### Repetition -/

theorem repeatLoop_spec (src : Arr) (dst : Nat) (hne : src.store ≠ dst) (vals : List V) (hv : vals ≠ []) : ∀ (n : Nat) (h : Heap V) (s : List V) (k i : Nat), h.stores[dst]? = some s → k + n ≤ s.length → i = k % vals.length →
    src.idx.length = vals.length → (∀ j, h.read src j = vals[j]?) → (∀ v ∈ vals, imm v = some v) →
    ∃ s', repeatLoop imm h dst src n k i = ⟨{ h with stores := h.stores.set dst s' }, .ok ()⟩ ∧ s'.length = s.length ∧ ∀ j : Nat, s'[j]? = if k ≤ j ∧ j < k + n then vals[j % vals.length]? else s[j]? := by
  intro n
  induction n with
  | zero =>
    intro h s k i hs hk hi hl hr him
    refine ⟨s, ?_, rfl, fun j => by rw [if_neg (by omega)]⟩
    rw [repeatLoop]
    obtain ⟨h1, h2⟩ := List.getElem?_eq_some_iff.mp hs
    rw [← h2, List.set_getElem_self]
  | succ n ih =>
    intro h s k i hs hk hi hl hr him
    have hpos : 0 < vals.length := List.length_pos_iff.2 hv
    have hi' : i < vals.length := hi ▸ Nat.mod_lt _ hpos
    obtain ⟨h1, h2⟩ := List.getElem?_eq_some_iff.mp hs
    have hb : (h.read src i).bind imm = some vals[i] := by
      rw [hr, List.getElem?_eq_getElem hi']
      exact him _ (List.getElem_mem hi')
    rw [repeatLoop, hb]
    have hs2 : (h.write dst k vals[i]).stores[dst]? = some (s.set k vals[i]) := by
      simp [Heap.write, hs]
    obtain ⟨s', e, hlen, hj⟩ := ih (h.write dst k vals[i]) (s.set k vals[i]) (k + 1) ((i + 1) % src.idx.length) hs2 (by simp; omega) (by rw [hl, hi]; simp) hl
      (by
        intro j
        rw [← hr j]
        simp only [Heap.read, Heap.store, List.getD_eq_getElem?_getD, write_other h dst k vals[i] src.store hne]) him
    refine ⟨s', ?_, by simpa using hlen, ?_⟩
    · dsimp only
      rw [e]
      congr 2
      simp only [Heap.write]
      apply List.ext_getElem?
      intro m
      by_cases hm : m = dst
      · subst hm; simp [h1]
      · simp [List.getElem?_set_ne (Ne.symm hm), Ne.symm hm]
    · intro j
      rw [hj j]
      by_cases h3 : j = k
      · subst h3
        rw [if_neg (by omega), if_pos (by omega)]
        simp only [List.getElem?_set_self (by omega : j < s.length), hi]
        rw [List.getElem?_eq_getElem (Nat.mod_lt _ hpos)]
      · rw [List.getElem?_set_ne (Ne.symm h3)]
        by_cases h4 : k + 1 ≤ j ∧ j < k + 1 + n
        · rw [if_pos h4, if_pos (by omega)]
        · rw [if_neg h4, if_neg (by omega)]

/-- With the number of repetitions in a tuple: the new array has the elements of the array that many times over, in a memory of its own, and the array itself is as before. -/
theorem C124_repeat_partial (before : List (Op V)) (a n : Nat) (arr : Arr) (ha : (history imm none' before).1.arrays[a]? = some arr) (hpos : 0 < length arr) (him : ∀ v ∈ elements (history imm none' before).1 arr, imm v = some v) :
    ∃ brr h', repeat' imm none' (history imm none' before).1 a [.tuple [(n : Int)]] = ⟨h', .ok (history imm none' before).1.arrays.length⟩ ∧ h'.arrays = (history imm none' before).1.arrays ++ [brr] ∧ length brr = n * length arr ∧
      brr.ro = false ∧ brr.store = (history imm none' before).1.stores.length ∧
      (∀ k, k < n * length arr → h'.read brr k = (history imm none' before).1.read arr (k % length arr) ∧ (h'.read brr k).isSome) ∧ (∀ crr ∈ (history imm none' before).1.arrays, ∀ k, h'.read crr k = (history imm none' before).1.read crr k) := by
  have hwf : WF (history imm none' before).1 := (history_inv before).1
  set h := (history imm none' before).1
  have hmem := List.mem_of_getElem? ha
  have hold : ∀ crr ∈ h.arrays, crr.store < h.stores.length := by
    intro crr hc
    obtain ⟨t, ht, _⟩ := hwf crr hc
    exact (List.getElem?_eq_some_iff.mp ht).1
  obtain ⟨⟨brr, hnew, hlen, hro, hst, hel⟩, _⟩ := C124_new (none' := none') h (n * length arr)
  set h1 : Heap V := ⟨h.stores ++ [List.replicate (n * length arr) none'], h.arrays ++ [brr]⟩
  have hsome : ∀ k ∈ List.range arr.idx.length, (h.read arr k).isSome := fun k hk => read_isSome hwf hmem k (List.mem_range.1 hk)
  have hvl : (elements h arr).length = arr.idx.length := by rw [elements, filterMap_length_of_isSome _ _ hsome, List.length_range]
  have hvals : ∀ j, h.read arr j = (elements h arr)[j]? := by
    intro j
    rw [elements, filterMap_getElem _ _ hsome]
    by_cases hj : j < arr.idx.length
    · simp [hj]
    · rw [List.getElem?_eq_none (by simp; omega)]
      simp only [Heap.read, List.getElem?_eq_none (by omega : arr.idx.length ≤ j)]
      rfl
  have hkeep : ∀ crr ∈ h.arrays, ∀ (s' : List V) (k : Nat), ({ h1 with stores := h1.stores.set h.stores.length s' } : Heap V).read crr k = h.read crr k := by
    intro crr hc s' k
    have := hold crr hc
    simp only [Heap.read, Heap.store, h1, List.getD_eq_getElem?_getD]
    rw [List.getElem?_set_ne (by omega), List.getElem?_append_left this]
  have hread1 : ∀ j, h1.read arr j = (elements h arr)[j]? := by
    intro j
    rw [← hvals j]
    have := hold arr hmem
    simp only [Heap.read, Heap.store, h1, List.getD_eq_getElem?_getD, List.getElem?_append_left this]
  obtain ⟨s', e, hsl, hs'⟩ := repeatLoop_spec (imm := imm) arr h.stores.length (by have := hold arr hmem; omega) (elements h arr) (by rw [← List.length_pos_iff, hvl]; exact hpos)
    (n * length arr) h1 (List.replicate (n * length arr) none') 0 0 (by show (h.stores ++ [List.replicate (n * length arr) none'])[h.stores.length]? = _; simp) (by simp) (by simp) hvl.symm hread1 him
  have hidx : brr.idx = List.range (n * length arr) := by
    have := congrArg (fun o : Outcome (Heap V) Nat => o.state.arrays) hnew
    have hc : ¬ (((n * length arr : Nat) : Int) < 0) := by omega
    simp only [newSized, hc, if_false] at this
    have := List.append_cancel_left this
    simp only [List.cons.injEq, and_true] at this
    rw [← this, Int.toNat_natCast]
  refine ⟨brr, { h1 with stores := h1.stores.set h.stores.length s' }, ?_, rfl, hlen, hro, hst, ?_, fun crr hc k => hkeep crr hc s' k⟩
  · simp only [repeat', ha]
    have hcast : (n : Int) * (arr.idx.length : Int) = ((n * length arr : Nat) : Int) := by simp [length]
    rw [hcast, hnew]
    simp only [Int.toNat_natCast, e]
    rfl
  · intro k hk
    have : ({ h1 with stores := h1.stores.set h.stores.length s' } : Heap V).read brr k = h.read arr (k % length arr) := by
      rw [hvals]
      simp only [Heap.read, Heap.store, h1, List.getD_eq_getElem?_getD, hidx, hst]
      rw [List.getElem?_eq_getElem (by simpa using hk)]
      simp only [List.getElem_range, Option.bind_eq_bind, Option.bind_some]
      rw [List.getElem?_set_self (by simp)]
      simp only [Option.getD_some]
      rw [hs' k, if_pos (by omega), hvl]
      rfl
    refine ⟨this, ?_⟩
    rw [this]
    exact read_isSome hwf hmem _ (Nat.mod_lt _ hpos)

/-- The documented call with the number itself raises a TypeError, for every array. -/
theorem C124_violated_repeat (h : Heap V) (a : Nat) (arr : Arr) (ha : h.arrays[a]? = some arr) (n : Int) : repeat' imm none' h a [.int n] = ⟨h, .error .typeError⟩ := by
  simp [repeat', ha]

/-- More or fewer arguments than one, and a slice with a step of zero, are ValueErrors; nothing is made. -/
theorem C124_refused (h : Heap V) (a : Nat) (arr : Arr) (ha : h.arrays[a]? = some arr) (sizes : List RepArg) (hs : sizes.length ≠ 1) (start stop : Option Int) :
    repeat' imm none' h a sizes = ⟨h, .error .valueError⟩ ∧ construct none' h none (some (some a, .slice start stop 0)) = ⟨h, .error .valueError⟩ := by
  constructor
  · match sizes, hs with
    | [], _ => simp [repeat', ha]
    | _ :: _ :: _, _ => simp [repeat', ha]
  · simp [construct, newSlice, ha]

/-- A tuple with more than one element is not refused: the other elements are ignored. -/
theorem C124_violated_repeat_tuple (h : Heap V) (a : Nat) (n m : Int) (rest : List Int) : repeat' imm none' h a [.tuple (n :: m :: rest)] = repeat' imm none' h a [.tuple [n]] := by
  unfold repeat'
  cases h.arrays[a]? <;> rfl

example : let h := (history some 0 [.new 2, .setSlice 0 none none 1 [1, 2]]).1
    let o := repeat' some 0 h 0 [.tuple [3]]
    o.result = .ok 1 ∧ o.state.arrays[1]?.map (elements o.state) = some [1, 2, 1, 2, 1, 2] := by decide

/-! ### numpy -/

theorem writeLoop_spec (dst : Nat) (f : V → V) : ∀ (l : List V) (h : Heap V) (s : List V) (k : Nat), h.stores[dst]? = some s → k + l.length ≤ s.length → (∀ v ∈ l, imm v = some (f v)) →
    ∃ s', writeLoop imm h dst ((List.range' k l.length).zip l) = ⟨{ h with stores := h.stores.set dst s' }, .ok ()⟩ ∧ s'.length = s.length ∧ ∀ j : Nat, s'[j]? = if k ≤ j ∧ j < k + l.length then (l[j - k]?).map f else s[j]? := by
  intro l
  induction l with
  | nil =>
    intro h s k hs hk him
    refine ⟨s, ?_, rfl, fun j => by rw [if_neg (by simp)]⟩
    obtain ⟨h1, h2⟩ := List.getElem?_eq_some_iff.mp hs
    simp only [List.length_nil, List.range'_zero, List.zip_nil_left, writeLoop]
    rw [← h2, List.set_getElem_self]
  | cons v l ih =>
    intro h s k hs hk him
    obtain ⟨h1, h2⟩ := List.getElem?_eq_some_iff.mp hs
    rw [List.length_cons] at hk
    rw [List.length_cons, List.range'_succ, List.zip_cons_cons, writeLoop, him v (by simp)]
    obtain ⟨s', e, hlen, hj⟩ := ih (h.write dst k (f v)) (s.set k (f v)) (k + 1) (by simp [Heap.write, hs]) (by simp; omega) (fun x hx => him x (by simp [hx]))
    refine ⟨s', ?_, by simpa using hlen, ?_⟩
    · dsimp only
      rw [e]
      congr 2
      simp only [Heap.write]
      apply List.ext_getElem?
      intro m
      by_cases hm : m = dst
      · subst hm; simp [h1]
      · simp [List.getElem?_set_ne (Ne.symm hm), Ne.symm hm]
    · intro j
      rw [hj j]
      by_cases h3 : j = k
      · subst h3
        rw [if_neg (by omega), if_pos (by omega)]
        simp [show j < s.length by omega]
      · rw [List.getElem?_set_ne (Ne.symm h3)]
        by_cases h4 : k + 1 ≤ j ∧ j < k + 1 + l.length
        · rw [if_pos h4, if_pos (by omega)]
          congr 1
          rw [show j - k = (j - (k + 1)) + 1 by omega, List.getElem?_cons_succ]
        · rw [if_neg h4, if_neg (by omega)]

/-- `from_numpy`: the new array has the elements, each made immutable, in a memory of its own; arrays of numbers and other objects are refused. -/
theorem C124_from_numpy (h : Heap V) (l : List V) (f : V → V) (him : ∀ v ∈ l, imm v = some (f v)) :
    (∃ brr h', fromNumpy imm none' h (.objects l) = ⟨h', .ok h.arrays.length⟩ ∧ h'.arrays = h.arrays ++ [brr] ∧ brr.ro = false ∧ brr.store = h.stores.length ∧ elements h' brr = l.map f ∧
      ∀ crr : Arr, crr.store < h.stores.length → ∀ k, h'.read crr k = h.read crr k) ∧
    fromNumpy imm none' h .numbers = ⟨h, .error .valueError⟩ ∧ fromNumpy imm none' h .other = ⟨h, .error .typeError⟩ := by
  refine ⟨?_, rfl, rfl⟩
  let brr : Arr := ⟨h.stores.length, List.range l.length, false⟩
  have hc : ¬ ((l.length : Int) < 0) := by omega
  have hnew : newSized none' h (.int l.length) = ⟨⟨h.stores ++ [List.replicate l.length none'], h.arrays ++ [brr]⟩, .ok h.arrays.length⟩ := by
    simp [newSized, hc, brr]
  set h1 : Heap V := ⟨h.stores ++ [List.replicate l.length none'], h.arrays ++ [brr]⟩
  obtain ⟨s', e, hlen, hj⟩ := writeLoop_spec (imm := imm) h.stores.length f l h1 (List.replicate l.length none') 0 (by show (h.stores ++ [List.replicate l.length none'])[h.stores.length]? = _; simp) (by simp) him
  refine ⟨brr, { h1 with stores := h1.stores.set h.stores.length s' }, ?_, rfl, rfl, rfl, ?_, ?_⟩
  · simp only [fromNumpy, hnew, List.range_eq_range', e]
    rfl
  · have hr : ∀ k, k < l.length → ({ h1 with stores := h1.stores.set h.stores.length s' } : Heap V).read brr k = (l[k]?).map f := by
      intro k hk
      simp only [Heap.read, Heap.store, h1, brr, List.getD_eq_getElem?_getD]
      rw [List.getElem?_eq_getElem (by simpa using hk)]
      simp only [List.getElem_range, Option.bind_eq_bind, Option.bind_some]
      rw [List.getElem?_set_self (by simp)]
      simp only [Option.getD_some]
      rw [hj k, if_pos (by omega)]
      rfl
    apply List.ext_getElem?
    intro i
    rw [elements, filterMap_getElem]
    · by_cases hi : i < l.length
      · rw [List.getElem?_eq_getElem (by simpa [brr] using hi)]
        simp only [List.getElem_range, Option.bind_some]
        rw [hr i hi]
        simp
      · rw [List.getElem?_eq_none (by simp [brr]; omega), List.getElem?_eq_none (by simp; omega)]
        rfl
    · intro k hk
      have hk' : k < l.length := by simpa [brr] using hk
      rw [hr k hk']
      simp [hk']
  · intro crr hc k
    simp only [Heap.read, Heap.store, h1, List.getD_eq_getElem?_getD]
    rw [List.getElem?_set_ne (by omega), List.getElem?_append_left hc]

/-- `numpy()` gives mutable copies of the elements in their order. -/
theorem C124_numpy (thaw : V → V) (before : List (Op V)) (a : Nat) (arr : Arr) (_ : (history imm none' before).1.arrays[a]? = some arr) :
    toNumpy thaw (history imm none' before).1 arr = (elements (history imm none' before).1 arr).map thaw := by
  rw [toNumpy, elements, List.map_filterMap]

/-- If making the mutable copy of a stored element immutable gives the element back, then the array of the numpy array has the same elements. -/
theorem C124_round_trip (thaw : V → V) (before : List (Op V)) (a : Nat) (arr : Arr) (ha : (history imm none' before).1.arrays[a]? = some arr) (hrt : ∀ v ∈ elements (history imm none' before).1 arr, imm (thaw v) = some v) :
    ∃ brr h', fromNumpy imm none' (history imm none' before).1 (.objects (toNumpy thaw (history imm none' before).1 arr)) = ⟨h', .ok (history imm none' before).1.arrays.length⟩ ∧ h'.arrays = (history imm none' before).1.arrays ++ [brr] ∧
      elements h' brr = elements (history imm none' before).1 arr := by
  rw [C124_numpy thaw before a arr ha]
  obtain ⟨⟨brr, h', h1, h2, _, _, h5, _⟩, _⟩ := C124_from_numpy (imm := imm) (none' := none') (history imm none' before).1 ((elements (history imm none' before).1 arr).map thaw) (fun v => (imm v).getD v) (by
    intro v hv
    obtain ⟨w, hw, rfl⟩ := List.mem_map.1 hv
    rw [hrt w hw]; rfl)
  refine ⟨brr, h', h1, h2, ?_⟩
  rw [h5, List.map_map]
  conv_rhs => rw [← List.map_id (elements (history imm none' before).1 arr)]
  exact List.map_congr_left fun v hv => by simp [hrt v hv]

example : let h := (history (fun n : Nat => some (n % 10)) 0 [.new 2, .setSlice 0 none none 1 [1, 2]]).1
    let o := fromNumpy (fun n : Nat => some (n % 10)) 0 h (.objects (toNumpy (· + 10) h ⟨0, [0, 1], false⟩))
    toNumpy (· + 10) h ⟨0, [0, 1], false⟩ = [11, 12] ∧ o.result = .ok 1 ∧ o.state.arrays[1]?.map (elements o.state) = some [1, 2] := by decide

end EvoTorch.ObjectArray
