import Verif.Model.HookList
import Verif.Props.Hook
import Verif.Props.ObjectArray
import Mathlib.Data.List.Induction
/-!
C125: a hook is a mutable sequence of functions, and what happens when its functions change it while it is called.
-/
namespace EvoTorch.HookList
open EvoTorch
open EvoTorch.ObjectArray (normIndex slicePositions clampBound)

variable {F : Type}

/-- The position of index `i` in a sequence of length `n`, if there is one: counted from the end if negative. -/
def Position (n : Nat) (i : Int) (p : Nat) : Prop := p < n ∧ ((p : Int) = i ∨ (p : Int) = i + n)

theorem normIndex_some {n : Nat} {i : Int} {p : Nat} : normIndex n i = some p ↔ Position n i p := by
  unfold normIndex Position
  by_cases h : 0 ≤ i
  · rw [if_pos h]
    by_cases h2 : i.toNat < n
    · rw [if_pos h2, Option.some.injEq]; omega
    · rw [if_neg h2]; simp; omega
  · rw [if_neg h]
    by_cases h2 : -(n : Int) ≤ i
    · rw [if_pos h2, Option.some.injEq]; omega
    · rw [if_neg h2]; simp; omega

theorem normIndex_none {n : Nat} {i : Int} : normIndex n i = none ↔ ¬ ∃ p, Position n i p := by
  constructor
  · rintro h ⟨p, hp⟩
    rw [normIndex_some.2 hp] at h; cases h
  · intro h
    cases hn : normIndex n i with
    | none => rfl
    | some p => exact absurd ⟨p, normIndex_some.1 hn⟩ h

/-! ### Elements -/

/-- Reading, replacing and deleting one function. Positions outside the hook raise an IndexError and change nothing. -/
theorem C125_elements (l : List F) (i : Int) (x : F) :
    (∀ p, Position l.length i p → (∃ f, l[p]? = some f ∧ getInt l i = .ok f) ∧ setInt l i x = ⟨l.set p x, .ok ()⟩ ∧ delInt l i = ⟨l.take p ++ l.drop (p + 1), .ok ()⟩) ∧
    ((¬ ∃ p, Position l.length i p) → getInt l i = .error .indexError ∧ setInt l i x = ⟨l, .error .indexError⟩ ∧ delInt l i = ⟨l, .error .indexError⟩) := by
  constructor
  · intro p hp
    have hn := normIndex_some.2 hp
    refine ⟨⟨l[p]'hp.1, by simp [hp.1], ?_⟩, ?_, ?_⟩
    · simp [getInt, hn, hp.1]
    · simp [setInt, hn]
    · simp [delInt, hn, List.eraseIdx_eq_take_drop_succ]
  · intro h
    have hn := normIndex_none.2 h
    simp [getInt, setInt, delInt, hn]

/-- `insert(i, x)`: before position `i`, counted from the end if negative; beyond the ends it is the end. -/
theorem C125_insert (u w : List F) (x : F) :
    insert (u ++ w) u.length x = u ++ x :: w ∧ (w ≠ [] → insert (u ++ w) (-(w.length : Int)) x = u ++ x :: w) ∧
    (∀ i : Int, ((u ++ w).length : Int) ≤ i → insert (u ++ w) i x = u ++ w ++ [x]) ∧ (∀ i : Int, i ≤ -((u ++ w).length : Int) → i < 0 → insert (u ++ w) i x = x :: (u ++ w)) := by
  have key : ∀ i : Int, ∀ p : Nat, min (clampBound (u ++ w).length i) (u ++ w).length = p → insert (u ++ w) i x = (u ++ w).take p ++ x :: (u ++ w).drop p := by
    intro i p hp; rw [insert, hp]
  refine ⟨?_, ?_, ?_, ?_⟩
  · rw [key _ u.length (by unfold clampBound; rw [if_neg (by omega)]; simp)]; simp
  · intro hw
    have : 0 < w.length := List.length_pos_iff.2 hw
    rw [key _ u.length (by unfold clampBound; rw [if_pos (by omega)]; simp only [List.length_append]; omega)]; simp
  · intro i hi
    rw [key _ (u ++ w).length (by unfold clampBound; split <;> omega), List.take_length, List.drop_length]
  · intro i hi hneg
    rw [key _ 0 (by unfold clampBound; rw [if_pos hneg]; omega)]; simp

theorem append_eq (l : List F) (x : F) : append l x = l ++ [x] := by
  have := (C125_insert l [] x).1
  simpa [append] using this

/-- `append` and `extend` (also `+=`) add at the end. -/
theorem C125_append (l xs : List F) (x : F) : append l x = l ++ [x] ∧ extend l xs = l ++ xs := by
  refine ⟨append_eq l x, ?_⟩
  induction xs generalizing l with
  | nil => simp [extend]
  | cons y ys ih => rw [extend, ih, append_eq]; simp

/-- `pop(i)` gives the function at the position and takes it out. -/
theorem C125_pop (l : List F) (i : Int) :
    (∀ p f, Position l.length i p → l[p]? = some f → pop l i = ⟨l.take p ++ l.drop (p + 1), .ok f⟩) ∧ ((¬ ∃ p, Position l.length i p) → pop l i = ⟨l, .error .indexError⟩) := by
  constructor
  · intro p f hp hf
    obtain ⟨⟨g, hg, h1⟩, _, h3⟩ := (C125_elements l i f).1 p hp
    rw [hf] at hg; cases hg
    simp [pop, h1, h3, Except.map]
  · intro h
    cases l with
    | nil =>
      have := normIndex_none.2 h
      simp only [pop, getInt, this]
    | cons a l => simp [pop, ((C125_elements (a :: l) i a).2 h).1]

theorem pop_last (l : List F) (x : F) : pop (l ++ [x]) (-1) = ⟨l, .ok x⟩ := by
  have := (C125_pop (l ++ [x]) (-1)).1 l.length x ⟨by simp, by right; simp only [List.length_append, List.length_singleton]; omega⟩ (by simp)
  simpa using this

/-- `clear()` empties the hook. -/
theorem C125_clear (l : List F) : clear (l.length + 1) l = [] := by
  induction l using List.reverseRecOn with
  | nil => simp [clear, pop, getInt, normIndex]
  | append_singleton l x ih => simp only [List.length_append, List.length_singleton, clear, pop_last]; exact ih

/-- `index(x)` is the position of the first `x`, and `remove(x)` takes it out; a ValueError if there is none. -/
theorem C125_remove [DecidableEq F] (l : List F) (x : F) :
    (∀ u w, l = u ++ x :: w → x ∉ u → index l x = .ok u.length ∧ remove l x = ⟨u ++ w, .ok ()⟩) ∧ (x ∉ l → index l x = .error .valueError ∧ remove l x = ⟨l, .error .valueError⟩) := by
  have step : ∀ (i fuel : Nat) (v : F), l[i]? = some v → indexFrom l x (fuel + 1) i = if v = x then .ok i else indexFrom l x fuel (i + 1) := by
    intro i fuel v hv
    have hp : Position l.length i i := ⟨(List.getElem?_eq_some_iff.mp hv).1, .inl rfl⟩
    obtain ⟨⟨g, hg, h1⟩, _⟩ := (C125_elements l i v).1 i hp
    rw [hv] at hg; cases hg
    rw [indexFrom, h1]
  have skip : ∀ (n i fuel : Nat), (∀ j, i ≤ j → j < i + n → ∃ v, l[j]? = some v ∧ v ≠ x) → n ≤ fuel → indexFrom l x fuel i = indexFrom l x (fuel - n) (i + n) := by
    intro n
    induction n with
    | zero => intro i fuel _ _; rfl
    | succ n ih =>
      intro i fuel h hf
      obtain ⟨v, hv, hne⟩ := h i (by omega) (by omega)
      obtain ⟨m, rfl⟩ := Nat.exists_eq_succ_of_ne_zero (show fuel ≠ 0 by omega)
      rw [Nat.succ_eq_add_one, step i m v hv, if_neg hne, ih (i + 1) m (fun j h1 h2 => h j (by omega) (by omega)) (by omega)]
      congr 1 <;> omega
  constructor
  · rintro u w rfl hu
    have hi : index (u ++ x :: w) x = .ok u.length := by
      unfold index
      rw [skip u.length 0 _ (by
        intro j _ hj
        rw [Nat.zero_add] at hj
        refine ⟨u[j], by simp [List.getElem?_append_left hj, hj], fun h => hu (h ▸ List.getElem_mem hj)⟩) (by simp; omega)]
      obtain ⟨m, hm⟩ := Nat.exists_eq_succ_of_ne_zero (show (u ++ x :: w).length + 1 - u.length ≠ 0 by simp; omega)
      rw [hm, Nat.succ_eq_add_one, step (0 + u.length) m x (by simp), if_pos rfl, Nat.zero_add]
    refine ⟨hi, ?_⟩
    have := ((C125_elements (u ++ x :: w) (u.length : Int) x).1 u.length ⟨by simp, .inl rfl⟩).2.2
    simp only [remove, hi]
    rw [this]
    simp
  · intro hx
    have hi : index l x = .error .valueError := by
      unfold index
      rw [skip l.length 0 _ (by
        intro j _ hj
        rw [Nat.zero_add] at hj
        exact ⟨l[j], by simp, fun h => hx (h ▸ List.getElem_mem hj)⟩) (by omega)]
      rw [show l.length + 1 - l.length = 0 + 1 by omega, indexFrom]
      have := ((C125_elements l ((0 + l.length : Nat) : Int) x).2 (by rintro ⟨p, h1, h2⟩; omega)).1
      rw [this]
    exact ⟨hi, by simp [remove, hi]⟩

theorem reverseLoop_spec (l : List F) : ∀ (todo i : Nat) (m : List F), i + todo = l.length / 2 → m.length = l.length →
    (∀ j : Nat, j < l.length → m[j]? = if j < i ∨ l.length - i ≤ j then l[l.length - 1 - j]? else l[j]?) → reverseLoop l.length todo i m = l.reverse := by
  intro todo
  induction todo with
  | zero =>
    intro i m hi hm h
    rw [reverseLoop]
    apply List.ext_getElem?
    intro j
    by_cases hj : j < l.length
    · rw [h j hj, List.getElem?_reverse hj]
      by_cases h1 : j < i ∨ l.length - i ≤ j
      · rw [if_pos h1]
      · rw [if_neg h1]
        congr 1
        omega
    · rw [List.getElem?_eq_none (by omega), List.getElem?_eq_none (by simp; omega)]
  | succ todo ih =>
    intro i m hi hm h
    have hi2 : i < l.length := by omega
    have hk : l.length - i - 1 < l.length := by omega
    have ha : m[l.length - i - 1]? = some (l[l.length - i - 1]) := by
      rw [h _ hk, if_neg (by omega)]; simp
    have hb : m[i]? = some (l[i]) := by
      rw [h i hi2, if_neg (by omega)]; simp
    have ga : getInt m ((l.length : Int) - i - 1) = .ok l[l.length - i - 1] := by
      obtain ⟨⟨f, hf, e⟩, _⟩ := (C125_elements m ((l.length : Int) - i - 1) l[i]).1 (l.length - i - 1) ⟨by omega, by left; omega⟩
      rw [ha] at hf; cases hf; exact e
    have gb : getInt m (i : Int) = .ok l[i] := by
      obtain ⟨⟨f, hf, e⟩, _⟩ := (C125_elements m (i : Int) l[i]).1 i ⟨by omega, .inl rfl⟩
      rw [hb] at hf; cases hf; exact e
    have s1 : setInt m (i : Int) l[l.length - i - 1] = ⟨m.set i l[l.length - i - 1], .ok ()⟩ := ((C125_elements m i _).1 i ⟨by omega, .inl rfl⟩).2.1
    have s2 : setInt (m.set i l[l.length - i - 1]) ((l.length : Int) - i - 1) l[i] = ⟨(m.set i l[l.length - i - 1]).set (l.length - i - 1) l[i], .ok ()⟩ :=
      ((C125_elements _ ((l.length : Int) - i - 1) l[i]).1 (l.length - i - 1) ⟨by simp; omega, by left; omega⟩).2.1
    rw [reverseLoop, ga, gb]
    simp only [s1, s2]
    refine ih (i + 1) _ (by omega) (by simpa using hm) ?_
    intro j hj
    by_cases h1 : j = l.length - i - 1
    · subst h1
      rw [List.getElem?_set_self (by simp; omega), if_pos (by omega), List.getElem?_eq_getElem (by omega)]
      congr 2
      omega
    · rw [List.getElem?_set_ne (Ne.symm h1)]
      by_cases h2 : j = i
      · subst h2
        rw [List.getElem?_set_self (by omega), if_pos (by omega), List.getElem?_eq_getElem (by omega)]
        congr 2
        omega
      · rw [List.getElem?_set_ne (Ne.symm h2), h j hj]
        by_cases h3 : j < i ∨ l.length - i ≤ j
        · rw [if_pos h3, if_pos (by omega)]
        · rw [if_neg h3, if_neg (by omega)]

/-- `reverse()` reverses the order. -/
theorem C125_reverse (l : List F) : reverse l = l.reverse := by
  refine reverseLoop_spec l _ 0 l (by omega) rfl ?_
  intro j hj
  rw [if_neg (by omega)]

example : reverse [1, 2, 3, 4, 5] = [5, 4, 3, 2, 1] ∧ (remove [1, 2, 1] 1).state = [2, 1] ∧ (pop [1, 2, 3] (-2)).state = [1, 3] ∧ insert [1, 2, 3] (-1) 9 = [1, 2, 9, 3] := by decide

/-! ### Slices -/

/-- A slice is a hook of its own with the functions at the selected positions and the same arguments. -/
theorem C125_slice {A K : Type} (h : Hook F A K) (start stop : Option Int) (st : Nat) (hst : 1 ≤ st) :
    ∃ h', getSlice h start stop st = .ok h' ∧ h'.args = h.args ∧ h'.kwargs = h.kwargs ∧ h'.funcs.length = (slicePositions h.funcs.length start stop st).length ∧
      ∀ k p : Nat, (slicePositions h.funcs.length start stop st)[k]? = some p → h'.funcs[k]? = h.funcs[p]? ∧ p < h.funcs.length := by
  have hlt : ∀ p ∈ slicePositions h.funcs.length start stop st, (h.funcs[p]?).isSome := by
    intro p hp
    have := ObjectArray.slicePositions_lt _ _ _ _ _ hp
    simp [this]
  refine ⟨⟨(slicePositions h.funcs.length start stop st).filterMap fun p => h.funcs[p]?, h.args, h.kwargs⟩, by rw [getSlice, if_neg (by omega)], rfl, rfl, ?_, ?_⟩
  · exact ObjectArray.filterMap_length_of_isSome _ _ hlt
  · intro k p hk
    refine ⟨?_, ObjectArray.slicePositions_lt _ _ _ _ _ (List.mem_of_getElem? hk)⟩
    simp only
    rw [ObjectArray.filterMap_getElem _ _ hlt, hk]
    rfl

/-- A step of zero is a ValueError. -/
theorem C125_slice_zero {A K : Type} (h : Hook F A K) (l : List F) (start stop : Option Int) :
    (∃ e, e = PyErr.valueError ∧ getSlice h start stop 0 = .error e) ∧ delSlice l start stop 0 = ⟨l, .error .valueError⟩ := ⟨⟨_, rfl, rfl⟩, rfl⟩

/-- The selected positions: from start to stop in steps. -/
theorem C125_positions (n a b st : Nat) (hb : b ≤ n) (ha : a ≤ n) (p : Nat) : p ∈ slicePositions n (some a) (some b) st ↔ a ≤ p ∧ p < b ∧ (p - a) % st = 0 := by
  have e : ∀ c : Nat, c ≤ n → clampBound n (c : Int) = c := by
    intro c hc
    unfold clampBound
    rw [if_neg (by omega)]; omega
  simp only [slicePositions, e a ha, e b hb, List.mem_filter, List.mem_range, decide_eq_true_eq]
  omega

/-- Assigning to a slice replaces that part. -/
theorem C125_set_slice (u v w xs : List F) : setSlice (u ++ v ++ w) (some u.length) (some (u.length + v.length : Nat)) xs = u ++ xs ++ w ∧
    (w ≠ [] → setSlice (u ++ v ++ w) (some u.length) (some (-(w.length : Int))) xs = u ++ xs ++ w) ∧ setSlice (u ++ v) (some u.length) none xs = u ++ xs ∧ setSlice u none none xs = xs := by
  have e : ∀ (n c : Nat), c ≤ n → clampBound n (c : Int) = c := by
    intro n c hc
    unfold clampBound
    rw [if_neg (by omega)]; omega
  refine ⟨?_, ?_, ?_, ?_⟩
  · simp only [setSlice]
    rw [e _ _ (by simp), e _ _ (by simp), Nat.max_eq_right (by omega)]
    rw [List.append_assoc u v w, List.take_left, ← List.append_assoc u v w, ← List.length_append, List.drop_left]
  · intro hw
    have : 0 < w.length := List.length_pos_iff.2 hw
    have e2 : clampBound (u ++ v ++ w).length (-(w.length : Int)) = u.length + v.length := by
      unfold clampBound
      rw [if_pos (by omega)]
      simp
      omega
    simp only [setSlice]
    rw [e _ _ (by simp), e2, Nat.max_eq_right (by omega)]
    rw [List.append_assoc u v w, List.take_left, ← List.append_assoc u v w, ← List.length_append, List.drop_left]
  · simp only [setSlice]
    rw [e _ _ (by simp)]
    simp
  · simp [setSlice]

/-- Deleting a slice keeps the other functions in their order. -/
theorem C125_del_slice (l : List F) (start stop : Option Int) (st : Nat) (hst : 1 ≤ st) :
    ∃ ps : List Nat, ps.Pairwise (· < ·) ∧ (∀ p, p ∈ ps ↔ p < l.length ∧ p ∉ slicePositions l.length start stop st) ∧ (delSlice l start stop st).result = .ok () ∧ (delSlice l start stop st).state = ps.filterMap fun p => l[p]? := by
  refine ⟨(List.range l.length).filter fun p => decide (p ∉ slicePositions l.length start stop st), ?_, ?_, ?_, ?_⟩
  · exact List.Pairwise.filter _ List.pairwise_lt_range
  · intro p; simp
  · rw [delSlice, if_neg (by omega)]
  · rw [delSlice, if_neg (by omega)]
    simp only
    generalize hS : slicePositions l.length start stop st = S
    clear hS
    have gen : ∀ (m : List F) (k : Nat), (m.zipIdx k).filterMap (fun x => if x.2 ∉ S then some x.1 else none) = ((List.range' k m.length).filter fun p => decide (p ∉ S)).filterMap fun p => if k ≤ p then m[p - k]? else none := by
      intro m
      induction m with
      | nil => intro k; simp
      | cons a m ih =>
        intro k
        have tail : (((List.range' (k + 1) m.length).filter fun p => decide (p ∉ S)).filterMap fun p => if k + 1 ≤ p then m[p - (k + 1)]? else none) =
            ((List.range' (k + 1) m.length).filter fun p => decide (p ∉ S)).filterMap fun p => if k ≤ p then (a :: m)[p - k]? else none := by
          apply List.filterMap_congr
          intro p hp
          have : k + 1 ≤ p := by
            have := (List.mem_filter.1 hp).1
            rw [List.mem_range'_1] at this
            exact this.1
          rw [if_pos this, if_pos (by omega), show p - k = (p - (k + 1)) + 1 by omega, List.getElem?_cons_succ]
        rw [List.zipIdx_cons, List.filterMap_cons, List.length_cons, List.range'_succ, List.filter_cons, ih (k + 1), tail]
        by_cases hk : k ∈ S
        · simp [hk]
        · simp [hk]
    have := gen l 0
    simp only [Nat.zero_le, if_true, Nat.sub_zero, ← List.range_eq_range'] at this
    rw [← this]
    generalize l.zipIdx = z
    induction z with
    | nil => rfl
    | cons a z ih =>
      by_cases ha : a.2 ∈ S
      · simpa [ha] using ih
      · simpa [ha] using ih

/-! ### Calls -/

variable {W K V : Type} [DecidableEq K]

/-- If no function changes the hook, then a call is as in C38: the functions are called in order with the same results. -/
theorem C125_call_unchanged (meaning : F → DynFn W K V F) (hfix : ∀ f args kwargs s, (meaning f args kwargs s).1.1 = s.1) (hargs : List V) (hkwargs : EvoTorch.Hook.Dict K V) (args : List V) (kwargs : EvoTorch.Hook.Dict K V) (l : List F) (w : W) :
    let static : EvoTorch.Hook.Hook W K V := ⟨l.map fun f args kwargs w => ((meaning f args kwargs (l, w)).1.2, (meaning f args kwargs (l, w)).2), hargs, hkwargs⟩
    dynCall meaning (l.length + 1) hargs hkwargs args kwargs (l, w) =
      some ((l, (EvoTorch.Hook.call static args kwargs w).1.world), l.take (EvoTorch.Hook.call static args kwargs w).1.calls.length, (EvoTorch.Hook.call static args kwargs w).2) := by
  intro static
  have gen : ∀ (rest done : List F) (acc : EvoTorch.Hook.Acc K V) (w : W) (calls : List (EvoTorch.Hook.Call K V)) (fuel : Nat), l = done ++ rest → fuel = rest.length + 1 → calls.length = done.length →
      dynLoop meaning (hargs ++ args) (EvoTorch.Hook.dictUpdate hkwargs kwargs) fuel done.length acc (l, w) done =
        let r := EvoTorch.Hook.loop (hargs ++ args) (EvoTorch.Hook.dictUpdate hkwargs kwargs) (rest.map fun f args kwargs w => ((meaning f args kwargs (l, w)).1.2, (meaning f args kwargs (l, w)).2)) done.length acc ⟨w, calls⟩
        some ((l, r.1.world), l.take r.1.calls.length, r.2) := by
    intro rest
    induction rest with
    | nil =>
      intro done acc w calls fuel hl hf hc
      subst hf
      rw [List.append_nil] at hl
      subst hl
      simp [dynLoop, EvoTorch.Hook.loop, hc]
    | cons f rest ih =>
      intro done acc w calls fuel hl hf hc
      subst hf
      have hget : l[done.length]? = some f := by rw [hl]; simp
      have htake : l.take (done.length + 1) = done ++ [f] := by
        rw [hl, show done ++ f :: rest = (done ++ [f]) ++ rest by simp, show done.length + 1 = (done ++ [f]).length by simp, List.take_left]
      have hst := hfix f (hargs ++ args) (EvoTorch.Hook.dictUpdate hkwargs kwargs) (l, w)
      simp only [List.length_cons, dynLoop, hget, List.map_cons, EvoTorch.Hook.loop]
      have hpair : (meaning f (hargs ++ args) (EvoTorch.Hook.dictUpdate hkwargs kwargs) (l, w)).1 = (l, (meaning f (hargs ++ args) (EvoTorch.Hook.dictUpdate hkwargs kwargs) (l, w)).1.2) := Prod.ext hst rfl
      cases hr : (meaning f (hargs ++ args) (EvoTorch.Hook.dictUpdate hkwargs kwargs) (l, w)).2 with
      | error e =>
        simp only [List.length_append, List.length_singleton, hc, htake]
        rw [← hpair]
      | ok ret =>
        simp only
        cases ha : EvoTorch.Hook.accumulate acc ret with
        | error e =>
          simp only [List.length_append, List.length_singleton, hc, htake]
          rw [← hpair]
        | ok acc' =>
          simp only
          rw [hpair]
          have := ih (done ++ [f]) acc' (meaning f (hargs ++ args) (EvoTorch.Hook.dictUpdate hkwargs kwargs) (l, w)).1.2 (calls ++ [⟨done.length, hargs ++ args, EvoTorch.Hook.dictUpdate hkwargs kwargs⟩]) (rest.length + 1) (by rw [hl]; simp) rfl (by simp [hc])
          rw [List.length_append, List.length_singleton] at this
          exact this
  exact gen l [] .none w [] _ rfl rfl rfl

/-- If functions only add functions at the end, then every function of the hook, old or new, is called once, in order. -/
theorem C125_call_growing (meaning : F → DynFn W K V F) (hgrow : ∀ f args kwargs s, ∃ m, (meaning f args kwargs s).1.1 = s.1 ++ m) (fuel : Nat) (hargs : List V) (hkwargs : EvoTorch.Hook.Dict K V) (args : List V) (kwargs : EvoTorch.Hook.Dict K V) (s s' : List F × W) (calls : List F) (acc : EvoTorch.Hook.Acc K V)
    (h : dynCall meaning fuel hargs hkwargs args kwargs s = some (s', calls, .ok acc)) : calls = s'.1 ∧ ∃ m, s'.1 = s.1 ++ m := by
  have gen : ∀ (fuel i : Nat) (acc0 : EvoTorch.Hook.Acc K V) (t : List F × W) (c : List F), c = t.1.take i → i ≤ t.1.length →
      dynLoop meaning (hargs ++ args) (EvoTorch.Hook.dictUpdate hkwargs kwargs) fuel i acc0 t c = some (s', calls, .ok acc) → calls = s'.1 ∧ ∃ m, s'.1 = t.1 ++ m := by
    intro fuel
    induction fuel with
    | zero => intro i acc0 t c _ _ h; cases h
    | succ fuel ih =>
      intro i acc0 t c hc hi h
      rw [dynLoop] at h
      cases hg : t.1[i]? with
      | none =>
        rw [hg] at h
        simp only [Option.some.injEq, Prod.mk.injEq] at h
        obtain ⟨rfl, rfl, _⟩ := h
        have := List.getElem?_eq_none_iff.1 hg
        refine ⟨?_, [], by simp⟩
        rw [hc, List.take_of_length_le this]
      | some f =>
        rw [hg] at h
        simp only at h
        obtain ⟨hlt, hf⟩ := List.getElem?_eq_some_iff.mp hg
        cases hr : (meaning f (hargs ++ args) (EvoTorch.Hook.dictUpdate hkwargs kwargs) t).2 with
        | error e => rw [hr] at h; simp at h
        | ok ret =>
          rw [hr] at h
          simp only at h
          cases ha : EvoTorch.Hook.accumulate acc0 ret with
          | error e => rw [ha] at h; simp at h
          | ok acc' =>
            rw [ha] at h
            obtain ⟨m, hm⟩ := hgrow f (hargs ++ args) (EvoTorch.Hook.dictUpdate hkwargs kwargs) t
            obtain ⟨h1, m2, h2⟩ := ih (i + 1) acc' _ (c ++ [f]) (by
              rw [hm, hc, List.take_append_of_le_length (by omega), List.take_add_one, hg]; rfl) (by rw [hm]; simp; omega) h
            exact ⟨h1, m ++ m2, by rw [h2, hm, List.append_assoc]⟩
  exact gen fuel 0 .none s [] (by simp) (by omega) h

/-- A function which takes itself out of the hook while it is called (a callback to be used once) makes the hook skip the function after it. -/
theorem C125_violated_self_removal :
    let meaning : Nat → DynFn Unit Nat Nat Nat := fun f _ _ s => (if f = 1 then (s.1.erase 1, s.2) else s, .ok .none)
    dynCall meaning 5 [] [] [] [] ([1, 2, 3], ()) = some (([2, 3], ()), [1, 3], .ok .none) := by
  decide

example : let meaning : Nat → DynFn Unit Nat Nat Nat := fun f _ _ s => (if f = 1 then (s.1 ++ [9], s.2) else s, .ok .none)
    dynCall meaning 5 [] [] [] [] ([1, 2], ()) = some (([1, 2, 9], ()), [1, 2, 9], .ok .none) := by decide

end EvoTorch.HookList
