import Verif.Model.FreezeIter
import Mathlib.Tactic.Common
/-!
C157: what `as_immutable` makes of iterables.
-/
namespace EvoTorch.FreezeIter

variable {A : Type}

/-- What is in a memo agrees with the heap `h`. -/
private def Agrees (h : Nat → Option (Tree A)) (memo : Memo A) : Prop := ∀ i r, memo.lookup i = some r → h i = some r

mutual
private theorem freeze_alive (h : Nat → Option (Tree A)) (memo : Memo A) (hm : Agrees h memo) :
    ∀ x : Obj A, (∀ y ∈ x.parts, h y.addr = some y.tree) → (freeze memo x).1 = x.tree ∧ Agrees h (freeze memo x).2
  | .atom i a, hx => by
    have h1 := hx (.atom i a) (by simp [Obj.parts])
    unfold freeze
    cases hl : memo.lookup i with
    | none => exact ⟨rfl, hm⟩
    | some r =>
      have h2 := hm i r hl
      simp only [Obj.addr] at h1
      rw [h2] at h1
      exact ⟨Option.some.inj h1, hm⟩
  | .seq i items, hx => by
    have h1 := hx (.seq i items) (by simp [Obj.parts])
    have h3 := freezeAll_alive h memo hm items (fun y hy => hx y (by simp [Obj.parts, hy]))
    unfold freeze
    cases hl : memo.lookup i with
    | none =>
      refine ⟨by simp only [Obj.tree, h3.1], ?_⟩
      intro j r hj
      simp only [List.lookup_cons] at hj
      by_cases hji : j = i
      · subst hji
        simp only [beq_self_eq_true] at hj
        rw [← Option.some.inj hj, h3.1]
        exact h1
      · have : (j == i) = false := by simpa using hji
        rw [this] at hj
        exact h3.2 j r hj
    | some r =>
      have h2 := hm i r hl
      simp only [Obj.addr] at h1
      rw [h2] at h1
      exact ⟨Option.some.inj h1, hm⟩
private theorem freezeAll_alive (h : Nat → Option (Tree A)) (memo : Memo A) (hm : Agrees h memo) :
    ∀ xs : List (Obj A), (∀ y ∈ Obj.allParts xs, h y.addr = some y.tree) →
      (freezeAll memo xs).1 = Obj.trees xs ∧ Agrees h (freezeAll memo xs).2
  | [], _ => by simp [freezeAll, Obj.trees, hm]
  | x :: xs, hx => by
    have h1 := freeze_alive h memo hm x (fun y hy => hx y (by simp [Obj.allParts, hy]))
    have h2 := freezeAll_alive h (freeze memo x).2 h1.2 xs (fun y hy => hx y (by simp [Obj.allParts, hy]))
    unfold freezeAll
    exact ⟨by simp only [Obj.trees, h1.1, h2.1], h2.2⟩
end

theorem trees_eq_map (xs : List (Obj A)) : Obj.trees xs = xs.map Obj.tree := by
  induction xs with
  | nil => rfl
  | cons x xs ih => simp [Obj.trees, ih]

/-- **C157, partial.** If there is a moment at which everything the iterable yields exists (`h` is what is then at each address, as for the items of a
list or a tuple), the immutable list has the contents of the items, in their order, however often and wherever objects are shared. Missing: iterables
which make their items on the fly. -/
theorem C157_alive_partial (h : Nat → Option (Tree A)) (items : List (Obj A)) (ha : ∀ y ∈ Obj.allParts items, h y.addr = some y.tree) :
    immutableList items = items.map Obj.tree := by
  rw [← trees_eq_map]
  exact (freezeAll_alive h [] (by intro i r hl; simp at hl) items ha).1

/-- Basic data. -/
def Obj.isAtom : Obj A → Prop
  | .atom _ _ => True
  | .seq _ _ => False

private theorem freezeAll_atoms (memo : Memo A) :
    ∀ xs : List (Obj A), (∀ x ∈ xs, x.isAtom) → (∀ x ∈ xs, memo.lookup x.addr = none) → freezeAll memo xs = (Obj.trees xs, memo)
  | [], _, _ => rfl
  | .atom i a :: xs, h1, h2 => by
    have h3 : memo.lookup i = none := h2 (.atom i a) (by simp)
    have h4 := freezeAll_atoms memo xs (fun x hx => h1 x (by simp [hx])) (fun x hx => h2 x (by simp [hx]))
    unfold freezeAll freeze
    simp only [h3, h4, Obj.trees, Obj.tree]
  | .seq i l :: xs, h1, _ => (h1 (.seq i l) (by simp)).elim

/-- The contents of the first of these sequences that is at address `i`. -/
def firstAt (i : Nat) : List (Nat × List (Obj A)) → Option (Tree A)
  | [] => none
  | (j, t) :: rest => if j = i then some (.list (Obj.trees t)) else firstAt i rest

theorem firstAt_append (i : Nat) (xs ys : List (Nat × List (Obj A))) : firstAt i (xs ++ ys) = (firstAt i xs).or (firstAt i ys) := by
  induction xs with
  | nil => rfl
  | cons x xs ih =>
    obtain ⟨j, t⟩ := x
    simp only [List.cons_append, firstAt]
    split <;> simp [ih]

private theorem freezeAll_flat (done : List (Nat × List (Obj A))) :
    ∀ (todo : List (Nat × List (Obj A))) (memo : Memo A), (∀ i, memo.lookup i = firstAt i done) →
      (∀ p ∈ todo, ∀ x ∈ p.2, x.isAtom ∧ ∀ q ∈ done ++ todo, q.1 ≠ x.addr) →
      (freezeAll memo (todo.map fun p => Obj.seq p.1 p.2)).1.map some = todo.map fun p => firstAt p.1 (done ++ todo) := by
  intro todo
  induction todo generalizing done with
  | nil => intro memo _ _; rfl
  | cons p todo ih =>
    intro memo hmemo hat
    obtain ⟨i, t⟩ := p
    have hnone : ∀ x ∈ t, memo.lookup x.addr = none := by
      intro x hx
      rw [hmemo]
      have h1 := (hat (i, t) (by simp) x hx).2
      have h2 : ∀ q ∈ done, q.1 ≠ x.addr := fun q hq => h1 q (by simp [hq])
      clear h1 hat hmemo ih
      induction done with
      | nil => rfl
      | cons q done ih2 =>
        obtain ⟨j, s⟩ := q
        have := h2 (j, s) (by simp)
        simp only [firstAt, if_neg this]
        exact ih2 (fun q hq => h2 q (by simp [hq]))
    have hflat := freezeAll_atoms memo t (fun x hx => (hat (i, t) (by simp) x hx).1) hnone
    simp only [List.map_cons]
    unfold freezeAll
    simp only [List.map_cons]
    have hassoc : done ++ (i, t) :: todo = (done ++ [(i, t)]) ++ todo := by simp
    cases hl : memo.lookup i with
    | some r =>
      have hf : freeze memo (.seq i t) = (r, memo) := by unfold freeze; simp only [hl]
      rw [hf]
      have hd : firstAt i done = some r := by rw [← hmemo]; exact hl
      have h1 := ih (done ++ [(i, t)]) memo (by
        intro j
        rw [firstAt_append, hmemo]
        by_cases hj : i = j
        · subst hj; simp [hd]
        · simp [firstAt, hj]) (fun q hq x hx => ⟨(hat q (by simp [hq]) x hx).1, fun q' hq' => (hat q (by simp [hq]) x hx).2 q' (by
            rw [hassoc]; exact hq')⟩)
      simp only [h1, hassoc]
      refine congrArg₂ _ ?_ rfl
      rw [firstAt_append, firstAt_append, hd]; rfl
    | none =>
      have hf : freeze memo (.seq i t) = (.list (Obj.trees t), (i, .list (Obj.trees t)) :: memo) := by
        unfold freeze; simp only [hl, hflat]
      rw [hf]
      have hd : firstAt i done = none := by rw [← hmemo]; exact hl
      have h1 := ih (done ++ [(i, t)]) ((i, .list (Obj.trees t)) :: memo) (by
        intro j
        rw [firstAt_append, List.lookup_cons]
        by_cases hj : j = i
        · subst hj; simp [hd, firstAt]
        · have : (j == i) = false := by simpa using hj
          rw [this]
          simp only [hmemo, firstAt, if_neg (Ne.symm hj)]
          simp) (fun q hq x hx => ⟨(hat q (by simp [hq]) x hx).1, fun q' hq' => (hat q (by simp [hq]) x hx).2 q' (by
            rw [hassoc]; exact hq')⟩)
      simp only [h1, hassoc]
      refine congrArg₂ _ ?_ rfl
      rw [firstAt_append, firstAt_append, hd]; simp [firstAt]

/-- **C157.** What the immutable list really has: for each tuple of basic data that is yielded, the contents of the first tuple that was yielded from
the same address. -/
theorem C157_first_at_address (items : List (Nat × List (Obj A)))
    (hat : ∀ p ∈ items, ∀ x ∈ p.2, x.isAtom ∧ ∀ q ∈ items, q.1 ≠ x.addr) :
    (immutableList (items.map fun p => Obj.seq p.1 p.2)).map some = items.map fun p => firstAt p.1 items :=
  freezeAll_flat [] items [] (fun _ => rfl) hat

/-- The addresses at which the iterators of `dict.items()`, `zip` and `enumerate` put their tuples. -/
def slots (r : Nat) (fresh : Nat → Nat) : Bool → Nat → List (List (Obj A)) → List (Nat × List (Obj A))
  | _, _, [] => []
  | false, k, t :: ts => (r, t) :: slots r fresh true (k + 1) ts
  | true, k, t :: ts => (fresh k, t) :: slots r fresh false (k + 1) ts

private theorem reusing_eq (r : Nat) (fresh : Nat → Nat) (b : Bool) (k : Nat) (ts : List (List (Obj A))) :
    reusing r fresh b k ts = (slots r fresh b k ts).map fun p => Obj.seq p.1 p.2 := by
  induction ts generalizing b k with
  | nil => cases b <;> rfl
  | cons t ts ih => cases b <;> simp [reusing, slots, ih]

private theorem slots_mem (r : Nat) (fresh : Nat → Nat) (b : Bool) (k : Nat) (ts : List (List (Obj A))) :
    ∀ p ∈ slots r fresh b k ts, p.2 ∈ ts ∧ (p.1 = r ∨ ∃ j, p.1 = fresh j) := by
  induction ts generalizing b k with
  | nil => cases b <;> simp [slots]
  | cons t ts ih =>
    intro p hp
    cases b <;> simp only [slots, List.mem_cons] at hp <;> rcases hp with rfl | hp
    · exact ⟨by simp, .inl rfl⟩
    · exact ⟨by simp [(ih _ _ p hp).1], (ih _ _ p hp).2⟩
    · exact ⟨by simp, .inr ⟨k, rfl⟩⟩
    · exact ⟨by simp [(ih _ _ p hp).1], (ih _ _ p hp).2⟩

private theorem slots_even (r : Nat) (fresh : Nat → Nat) (k : Nat) (ts : List (List (Obj A))) (j : Nat) (t : List (Obj A)) (hj : ts[2 * j]? = some t) :
    (slots r fresh false k ts)[2 * j]? = some (r, t) := by
  induction j generalizing k ts with
  | zero =>
    cases ts with
    | nil => simp at hj
    | cons s ts => simp at hj; simp [slots, hj]
  | succ j ih =>
    match ts with
    | [] => simp at hj
    | [s] => simp [show 2 * (j + 1) = 2 * j + 1 + 1 by omega] at hj
    | s :: s' :: ts =>
      rw [show 2 * (j + 1) = 2 * j + 1 + 1 by omega] at hj ⊢
      simp only [List.getElem?_cons_succ] at hj
      simp only [slots, List.getElem?_cons_succ]
      exact ih _ ts hj

/-- **C157 is violated:** `as_immutable(d.items())`, `as_immutable(zip(...))` and `as_immutable(enumerate(...))`: whatever is iterated over, every other
element of the immutable list is the first tuple again. `rows` are the tuples the iterator yields, of basic data; nothing of them is at an address of
a tuple. -/
theorem C157_violated_items (r : Nat) (fresh : Nat → Nat) (rows : List (List (Obj A)))
    (hat : ∀ t ∈ rows, ∀ x ∈ t, x.isAtom ∧ x.addr ≠ r ∧ ∀ k, x.addr ≠ fresh k) (first : List (Obj A)) (hf : rows[0]? = some first) (j : Nat)
    (hj : 2 * j < rows.length) :
    (immutableList (reusing r fresh false 0 rows))[2 * j]? = some (.list (first.map Obj.tree)) := by
  have h := C157_first_at_address (slots r fresh false 0 rows) (by
    intro p hp x hx
    obtain ⟨h1, _⟩ := slots_mem r fresh false 0 rows p hp
    obtain ⟨a1, a2, a3⟩ := hat p.2 h1 x hx
    refine ⟨a1, ?_⟩
    intro q hq
    rcases (slots_mem r fresh false 0 rows q hq).2 with e | ⟨k, e⟩
    · rw [e]; exact Ne.symm a2
    · rw [e]; exact Ne.symm (a3 k))
  rw [← reusing_eq] at h
  have hs := slots_even r fresh 0 rows j _ (List.getElem?_eq_getElem hj)
  have h2 := congrArg (fun l => l[2 * j]?) h
  simp only [List.getElem?_map, hs, Option.map_some] at h2
  have hfst : firstAt r (slots r fresh false 0 rows) = some (.list (first.map Obj.tree)) := by
    cases rows with
    | nil => simp at hf
    | cons t ts =>
      simp at hf
      simp [slots, firstAt, hf, trees_eq_map]
  rw [hfst] at h2
  cases hv : (immutableList (reusing r fresh false 0 rows))[2 * j]? with
  | none => rw [hv] at h2; simp at h2
  | some v => rw [hv] at h2; simpa using h2

/-- **C157 is violated, for every dictionary of three items or more:** the keys of a dictionary differ, so `as_immutable(d.items())` never has its
contents. -/
theorem C157_violated_dictionary (r : Nat) (fresh : Nat → Nat) (d : List (Obj A × Obj A)) (hlen : 3 ≤ d.length)
    (hat : ∀ p ∈ d, (p.1.isAtom ∧ p.1.addr ≠ r ∧ ∀ k, p.1.addr ≠ fresh k) ∧ p.2.isAtom ∧ p.2.addr ≠ r ∧ ∀ k, p.2.addr ≠ fresh k)
    (hkeys : (d.map fun p => p.1.tree).Nodup) :
    immutableList (reusing r fresh false 0 (d.map fun p => [p.1, p.2])) ≠ d.map fun p => .list [p.1.tree, p.2.tree] := by
  intro h
  match d, hlen with
  | p :: p1 :: p2 :: rest, _ =>
    have h1 := C157_violated_items r fresh ((p :: p1 :: p2 :: rest).map fun p => [p.1, p.2]) (by
      intro t ht x hx
      obtain ⟨q, hq, rfl⟩ := List.mem_map.1 ht
      obtain ⟨a, b⟩ := hat q hq
      simp only [List.mem_cons, List.not_mem_nil, or_false] at hx
      rcases hx with rfl | rfl
      · exact a
      · exact b) [p.1, p.2] rfl 1 (by simp)
    rw [h] at h1
    have h2 : p2.1.tree = p.1.tree := by
      simp at h1
      exact h1.1
    simp only [List.map_cons, List.nodup_cons, List.mem_cons, not_or] at hkeys
    exact hkeys.1.2.1 h2.symm

/-- `list(d.items())` for a dictionary with one shared value: the hypothesis of the partial theorem is met. -/
example : ∃ h : Nat → Option (Tree String), ∀ y ∈ Obj.allParts [Obj.seq 0 [.atom 10 "a", .seq 5 [.atom 20 "x"]], .seq 1 [.atom 11 "b", .seq 5 [.atom 20 "x"]]],
    h y.addr = some y.tree :=
  ⟨fun i => if i = 0 then some (.list [.atom "a", .list [.atom "x"]]) else if i = 1 then some (.list [.atom "b", .list [.atom "x"]])
    else if i = 5 then some (.list [.atom "x"]) else if i = 10 then some (.atom "a") else if i = 11 then some (.atom "b") else some (.atom "x"),
   by simp [Obj.allParts, Obj.parts, Obj.addr, Obj.tree, Obj.trees]⟩

/-- `as_immutable({"a": 1, "b": 2, "c": 3}.items())`. -/
example : (immutableList (reusing 0 (fun k => k + 1) false 0 [[.atom 100 "a", .atom 200 "1"], [.atom 101 "b", .atom 201 "2"], [.atom 102 "c", .atom 202 "3"]])) =
    [.list [.atom "a", .atom "1"], .list [.atom "b", .atom "2"], .list [.atom "a", .atom "1"]] := by
  simp [immutableList, reusing, freezeAll, freeze, List.lookup]

end EvoTorch.FreezeIter
