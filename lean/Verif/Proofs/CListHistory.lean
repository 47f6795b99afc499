import Verif.Model.CListHistory
import Verif.Proofs.CList
/-!
Simulation of `CList` calls by per-item deque steps.
-/
namespace EvoTorch.CList
open EvoTorch.Spec.Deque (Op Out pyIndex)

variable {α : Type} {B : Nat} {L : Int}

theorem anyB_iff {p : Fin B → Bool} : anyB p = true ↔ ∃ i, p i = true := by
  simp [anyB]

theorem anyB_false {p : Fin B → Bool} : anyB p = false ↔ ∀ i, p i = false := by
  rw [← Bool.not_eq_true, anyB_iff]
  simp

/-- One call, seen from batch item `i`. -/
structure SimStep (cap : Nat) (c : Batch B α) (l : Fin B → List α) (op : Call B α)
    (o : Outcome (Batch B α) (Fin B → Out α)) : Prop where
  bad : (∃ i, op.selects i = true ∧ Spec.Deque.step cap (l i) (op.at i) = none) →
    o.result = .error .indexError ∧ o.state = c
  good : (¬ ∃ i, op.selects i = true ∧ Spec.Deque.step cap (l i) (op.at i) = none) →
    ∃ f, o.result = .ok f ∧ ∀ i,
      (op.selects i = true → ∃ l', Spec.Deque.step cap (l i) (op.at i) = some (l', f i) ∧ Rep L (o.state i) l') ∧
      (op.selects i = false → Rep L (o.state i) (l i))

theorem modify?_some {l : List α} {k : Int} {j : Nat} (f : α → α) (h : pyIndex l.length k = some j) :
    Spec.Deque.modify? l k f = some (l.modify j f) := by simp [Spec.Deque.modify?, h]

theorem modify_eq_set (l : List α) (j : Nat) (f : α → α) (hj : j < l.length) : l.modify j f = l.set j (f l[j]) := by
  apply List.ext_getElem?
  intro i
  rw [List.getElem?_modify, List.getElem?_set]
  by_cases h : j = i
  · subst h; simp [hj]
  · simp [h]

theorem pyIndex_isSome {n : Nat} {k : Int} : (pyIndex n k).isSome ↔ -(n : Int) ≤ k ∧ k < n := by
  unfold pyIndex
  split
  · simp; omega
  · split
    · simp; omega
    · simp; omega

theorem pyIndex_none {n : Nat} {k : Int} : pyIndex n k = none ↔ ¬ (-(n : Int) ≤ k ∧ k < n) := by
  rw [← pyIndex_isSome]; simp

section
variable {c : Batch B α} {l : Fin B → List α} {cap : Nat}

theorem accept_within {r : Ring α} {l : List α} (h : Rep L r l) (hL : 2 ≤ L) {k : Int} (hk : -L ≤ k ∧ k < L) :
    isUnderlyingKeyValid L r (underlyingKey L r k) = true ↔ (pyIndex l.length k).isSome := by
  rw [h.accept_iff hL, pyIndex_isSome]; omega

theorem badAddress_false (h : ∀ i, Rep L (c i) (l i)) (hL : 2 ≤ L) {key : Fin B → Int}
    (hk : ∀ i, -L ≤ key i ∧ key i < L) : badAddress L c key = false := by
  unfold badAddress
  rw [anyB_false]; intro i
  have := (h i).address_isSome hL (hk i)
  cases h' : address L (underlyingKey L (c i) (key i)) <;> simp_all

theorem badKey_true (h : ∀ i, Rep L (c i) (l i)) (hL : 2 ≤ L) {key : Fin B → Int}
    (hk : ∀ i, -L ≤ key i ∧ key i < L) {w : Fin B → Bool} :
    badKey L c key w = true ↔ ∃ i, w i = true ∧ pyIndex (l i).length (key i) = none := by
  unfold badKey
  rw [anyB_iff]
  constructor
  · rintro ⟨i, hi⟩
    refine ⟨i, ?_⟩
    have := accept_within (h i) hL (hk i)
    cases hw : w i <;> simp_all
  · rintro ⟨i, hw, hi⟩
    refine ⟨i, ?_⟩
    have := accept_within (h i) hL (hk i)
    simp_all

theorem Rep.modifyItem {r : Ring α} {l : List α} (h : Rep L r l) (hL : 2 ≤ L) {k : Int} {j : Nat} (hj : pyIndex l.length k = some j) (f : α → α) :
    Rep L (writeAt L r (underlyingKey L r k) (f (readAt L r (underlyingKey L r k)))) (l.modify j f) := by
  obtain ⟨hlt, hu⟩ := h.underlying_some hL hj
  rw [hu, h.read hL hlt]
  have := h.write hL hlt (f l[j])
  rwa [modify_eq_set l j f hlt]

theorem sim_modify (hcap : (cap : Int) = L) (hL : 2 ≤ L) (h : ∀ i, Rep L (c i) (l i)) (key : Fin B → Int)
    (f : Fin B → α → α) (w : Fin B → Bool) (hk : ∀ i, -L ≤ key i ∧ key i < L) (fb : α) :
    SimStep (L := L) cap c l (.modify key f w) (exec L fb c (.modify key f w)) := by
  have hb := badKey_true h hL hk (w := w)
  have ha := badAddress_false h hL hk
  have hnone : ∀ i, Spec.Deque.step cap (l i) (.modify (key i) (f i)) = none ↔ pyIndex (l i).length (key i) = none := by
    intro i; simp [Spec.Deque.step, Spec.Deque.modify?]
  constructor
  · rintro ⟨i, hs, hi⟩
    have : badKey L c key w = true := hb.mpr ⟨i, hs, (hnone i).mp hi⟩
    simp [exec, modify, this, Except.map]
  · intro hn
    have hbf : badKey L c key w = false := by
      rw [Bool.eq_false_iff]; intro hh
      obtain ⟨i, hw, hi⟩ := hb.mp hh
      exact hn ⟨i, hw, (hnone i).mpr hi⟩
    refine ⟨fun _ => .unit, by simp [exec, modify, hbf, ha, Except.map], fun i => ?_⟩
    simp only [exec, modify, hbf, ha, Bool.false_eq_true, if_false]
    constructor
    · intro hw
      simp only [Call.selects] at hw
      cases hp : pyIndex (l i).length (key i) with
      | none => exact absurd ⟨i, hw, (hnone i).mpr hp⟩ hn
      | some j =>
        refine ⟨(l i).modify j (f i), ?_, ?_⟩
        · simp [Call.at, Spec.Deque.step, Spec.Deque.modify?, hp]
        · simp only [hw, if_true]
          exact (h i).modifyItem hL hp (f i)
    · intro hw
      simp only [Call.selects] at hw
      simp only [hw, Bool.false_eq_true, if_false]
      exact (h i).rewrite _

theorem sim_set (hcap : (cap : Int) = L) (hL : 2 ≤ L) (h : ∀ i, Rep L (c i) (l i)) (key : Fin B → Int)
    (v : Fin B → α) (w : Fin B → Bool) (hk : ∀ i, -L ≤ key i ∧ key i < L) (fb : α) :
    SimStep (L := L) cap c l (.set key v w) (exec L fb c (.set key v w)) := by
  have := sim_modify hcap hL h key (fun i _ => v i) w hk fb
  exact ⟨this.bad, this.good⟩

theorem sim_get (hL : 2 ≤ L) (h : ∀ i, Rep L (c i) (l i)) (key : Fin B → Int)
    (hk : ∀ i, -L ≤ key i ∧ key i < L) (fb : α) :
    SimStep (L := L) cap c l (.get key) (exec L fb c (.get key)) := by
  have hb := badKey_true h hL hk (w := fun _ => true)
  have ha := badAddress_false h hL hk
  have hnone : ∀ i, Spec.Deque.step cap (l i) (.get (key i)) = none ↔ pyIndex (l i).length (key i) = none := by
    intro i
    simp only [Spec.Deque.step, Option.map_eq_none_iff, Spec.Deque.get?]
    cases hp : pyIndex (l i).length (key i) with
    | none => simp
    | some j =>
      have := ((h i).underlying_some hL hp).1
      simp [this]
  constructor
  · rintro ⟨i, hs, hi⟩
    have : badKey L c key (fun _ => true) = true := hb.mpr ⟨i, rfl, (hnone i).mp hi⟩
    simp [exec, get, this, Except.map]
  · intro hn
    have hbf : badKey L c key (fun _ => true) = false := by
      rw [Bool.eq_false_iff]; intro hh
      obtain ⟨i, hw, hi⟩ := hb.mp hh
      exact hn ⟨i, rfl, (hnone i).mpr hi⟩
    refine ⟨fun i => .val (readAt L (c i) (underlyingKey L (c i) (key i))), by simp [exec, get, hbf, ha, Except.map],
      fun i => ?_⟩
    constructor
    · intro _
      cases hp : pyIndex (l i).length (key i) with
      | none => exact absurd ⟨i, rfl, (hnone i).mpr hp⟩ hn
      | some j =>
        obtain ⟨hlt, hu⟩ := (h i).underlying_some hL hp
        refine ⟨l i, ?_, h i⟩
        show _ = some (l i, Out.val (readAt L (c i) (underlyingKey L (c i) (key i))))
        rw [hu, (h i).read hL hlt]
        simp [Call.at, Spec.Deque.step, Spec.Deque.get?, hp, hlt]
    · intro hw; simp [Call.selects] at hw

theorem getDefault_item (hL : 2 ≤ L) (h : ∀ i, Rep L (c i) (l i)) (key : Fin B → Int) (d : Fin B → α)
    (hk : ∀ i, -L ≤ key i ∧ key i < L) (i : Fin B) :
    getDefault L c key d i = (Spec.Deque.get? (l i) (key i)).getD (d i) := by
  have hacc := accept_within (h i) hL (hk i)
  cases hp : pyIndex (l i).length (key i) with
  | none =>
    have : isUnderlyingKeyValid L (c i) (underlyingKey L (c i) (key i)) = false := by
      rw [Bool.eq_false_iff]; intro hh; have := hacc.mp hh; simp [hp] at this
    simp [getDefault, this, Spec.Deque.get?, hp]
  | some j =>
    have hv := hacc.mpr (by simp [hp])
    obtain ⟨hlt, hu⟩ := (h i).underlying_some hL hp
    have hl : l i ≠ [] := by intro h'; rw [h'] at hlt; simp at hlt
    have h1 := (h i).length_le hL; have h2 := (h i).rng hl
    simp only [getDefault, hv, if_true, Spec.Deque.get?, hp]
    rw [hu]
    have : (if (c i).beg + (j : Int) < L then (c i).beg + (j : Int) else (c i).beg + (j : Int) - L) % L
        = (if (c i).beg + (j : Int) < L then (c i).beg + (j : Int) else (c i).beg + (j : Int) - L) := by
      apply emod_small
      · split <;> omega
      · split <;> omega
    rw [this, (h i).read hL hlt]
    simp [hlt]

theorem sim_getDefault (hL : 2 ≤ L) (h : ∀ i, Rep L (c i) (l i)) (key : Fin B → Int) (d : Fin B → α)
    (hk : ∀ i, -L ≤ key i ∧ key i < L) (fb : α) :
    SimStep (L := L) cap c l (.getDefault key d) (exec L fb c (.getDefault key d)) := by
  constructor
  · rintro ⟨i, hs, hi⟩; simp [Call.at, Spec.Deque.step] at hi
  · intro _
    refine ⟨_, rfl, fun i => ⟨fun _ => ⟨l i, ?_, h i⟩, fun hw => by simp [Call.selects] at hw⟩⟩
    simp only [Call.at, Spec.Deque.step, getDefault_item hL h key d hk i]

theorem sim_length (hL : 2 ≤ L) (h : ∀ i, Rep L (c i) (l i)) (fb : α) :
    SimStep (L := L) cap c l .length (exec L fb c .length) := by
  constructor
  · rintro ⟨i, hs, hi⟩; simp [Call.at, Spec.Deque.step] at hi
  · intro _
    refine ⟨_, rfl, fun i => ⟨fun _ => ⟨l i, ?_, h i⟩, fun hw => by simp [Call.selects] at hw⟩⟩
    simp only [Call.at, Spec.Deque.step, (h i).length_spec hL]

theorem sim_clear (fb : α) :
    SimStep (L := L) cap c l .clear (exec L fb c .clear) := by
  constructor
  · rintro ⟨i, hs, hi⟩; simp [Call.at, Spec.Deque.step] at hi
  · intro _
    refine ⟨_, rfl, fun i => ⟨fun _ => ⟨[], rfl, ?_⟩, fun hw => by simp [Call.selects] at hw⟩⟩
    apply rep_new; simp [exec, clear]

theorem anyFull_iff (hcap : (cap : Int) = L) (hL : 2 ≤ L) (h : ∀ i, Rep L (c i) (l i)) {w : Fin B → Bool} :
    anyB (fun i => isFull L (c i) && w i) = true ↔ ∃ i, w i = true ∧ ¬ (l i).length < cap := by
  rw [anyB_iff]
  constructor
  · rintro ⟨i, hi⟩
    simp at hi
    have := ((h i).isFull_iff hL).mp hi.1
    exact ⟨i, hi.2, by omega⟩
  · rintro ⟨i, hw, hi⟩
    have := (h i).length_le hL
    have := ((h i).isFull_iff hL).mpr (by omega)
    exact ⟨i, by simp [this, hw]⟩

theorem anyEmpty_iff (h : ∀ i, Rep L (c i) (l i)) {w : Fin B → Bool} :
    anyB (fun i => isEmpty (c i) && w i) = true ↔ ∃ i, w i = true ∧ l i = [] := by
  rw [anyB_iff]
  constructor
  · rintro ⟨i, hi⟩
    simp at hi
    exact ⟨i, hi.2, (h i).isEmpty_iff.mp hi.1⟩
  · rintro ⟨i, hw, hi⟩
    exact ⟨i, by simp [(h i).isEmpty_iff.mpr hi, hw]⟩

theorem pyIndex_last {n : Nat} (h : 0 < n) : pyIndex n (-1) = some (n - 1) := by
  unfold pyIndex
  rw [if_neg (by omega), if_pos (by omega)]
  congr 1; omega

theorem pyIndex_first {n : Nat} (h : 0 < n) : pyIndex n 0 = some 0 := by
  unfold pyIndex
  rw [if_pos (by omega)]; rfl

theorem modify_append_last (l : List α) (a x : α) :
    (l ++ [a]).modify l.length (fun _ => x) = l ++ [x] := by
  rw [modify_eq_set _ _ _ (by simp)]
  simp

theorem sim_append (hcap : (cap : Int) = L) (hL : 2 ≤ L) (h : ∀ i, Rep L (c i) (l i))
    (v : Fin B → α) (w : Fin B → Bool) (fb : α) :
    SimStep (L := L) cap c l (.append v w) (exec L fb c (.append v w)) := by
  have hf := anyFull_iff hcap hL h (w := w)
  constructor
  · rintro ⟨i, hs, hi⟩
    have : anyB (fun i => isFull L (c i) && w i) = true := by
      refine hf.mpr ⟨i, hs, ?_⟩
      intro hlt; simp [Call.at, Spec.Deque.step, hlt] at hi
    simp [exec, append, this, Except.map]
  · intro hn
    have hff : anyB (fun i => isFull L (c i) && w i) = false := by
      rw [Bool.eq_false_iff]; intro hh
      obtain ⟨i, hw, hi⟩ := hf.mp hh
      exact hn ⟨i, hw, by simp [Call.at, Spec.Deque.step, hi]⟩
    have hlt : ∀ i, w i = true → (l i).length < cap := by
      intro i hw
      apply Classical.byContradiction
      intro hc
      have := hf.mpr ⟨i, hw, hc⟩
      rw [hff] at this; exact absurd this (by simp)
    have hrep : ∀ i, Rep L (moveEndForward L (c i) (w i))
        (if w i then l i ++ [(moveEndForward L (c i) true).data (pos L (moveEndForward L (c i) true).beg (l i).length)]
          else l i) := by
      intro i
      cases hw : w i
      · simpa [moveEndForward_false] using h i
      · simp only [if_true]
        exact (h i).moveEndForward_true hL (by have := hlt i hw; omega)
    have hs := sim_set (L := L) (cap := cap) hcap hL hrep (fun _ => -1) v w (fun _ => by omega) fb
    have hgood : ¬ ∃ i, (Call.set (fun _ => -1) v w).selects i = true ∧ Spec.Deque.step cap
        (if w i then l i ++ [(moveEndForward L (c i) true).data (pos L (moveEndForward L (c i) true).beg (l i).length)]
          else l i) ((Call.set (fun _ => -1) v w).at i) = none := by
      rintro ⟨i, hw, hi⟩
      simp only [Call.selects] at hw
      simp only [hw, if_true, Call.at, Spec.Deque.step, Spec.Deque.modify?, List.length_append, List.length_singleton,
        pyIndex_last (Nat.succ_pos _)] at hi
      simp at hi
    obtain ⟨f, hres, hall⟩ := hs.good hgood
    refine ⟨f, ?_, fun i => ?_⟩
    · simp only [exec, append, hff]
      exact hres
    · have hall := hall i
      simp only [exec, append, hff, Bool.false_eq_true, if_false] at hall ⊢
      constructor
      · intro hw
        simp only [Call.selects] at hw
        obtain ⟨l', h1, h2⟩ := hall.1 hw
        refine ⟨l', ?_, h2⟩
        simp only [hw, if_true, Call.at, Spec.Deque.step, Spec.Deque.modify?, List.length_append, List.length_singleton,
          pyIndex_last (Nat.succ_pos _), Option.map_some] at h1
        rw [← h1]
        simp [Call.at, Spec.Deque.step, hlt i hw, modify_append_last]
      · intro hw
        simp only [Call.selects] at hw
        have := hall.2 hw
        simpa [hw] using this

theorem sim_appendLeft (hcap : (cap : Int) = L) (hL : 2 ≤ L) (h : ∀ i, Rep L (c i) (l i))
    (v : Fin B → α) (w : Fin B → Bool) (fb : α) :
    SimStep (L := L) cap c l (.appendLeft v w) (exec L fb c (.appendLeft v w)) := by
  have hf := anyFull_iff hcap hL h (w := w)
  constructor
  · rintro ⟨i, hs, hi⟩
    have : anyB (fun i => isFull L (c i) && w i) = true := by
      refine hf.mpr ⟨i, hs, ?_⟩
      intro hlt; simp [Call.at, Spec.Deque.step, hlt] at hi
    simp [exec, appendLeft, this, Except.map]
  · intro hn
    have hff : anyB (fun i => isFull L (c i) && w i) = false := by
      rw [Bool.eq_false_iff]; intro hh
      obtain ⟨i, hw, hi⟩ := hf.mp hh
      exact hn ⟨i, hw, by simp [Call.at, Spec.Deque.step, hi]⟩
    have hlt : ∀ i, w i = true → (l i).length < cap := by
      intro i hw
      apply Classical.byContradiction
      intro hc
      have := hf.mpr ⟨i, hw, hc⟩
      rw [hff] at this; exact absurd this (by simp)
    have hrep : ∀ i, Rep L (moveBeginBackward L (c i) (w i))
        (if w i then (moveBeginBackward L (c i) true).data (pos L (moveBeginBackward L (c i) true).beg 0) :: l i
          else l i) := by
      intro i
      cases hw : w i
      · simpa [moveBeginBackward_false] using h i
      · simp only [if_true]
        exact (h i).moveBeginBackward_true hL (by have := hlt i hw; omega)
    have hs := sim_set (L := L) (cap := cap) hcap hL hrep (fun _ => 0) v w (fun _ => by omega) fb
    have hgood : ¬ ∃ i, (Call.set (fun _ => 0) v w).selects i = true ∧ Spec.Deque.step cap
        (if w i then (moveBeginBackward L (c i) true).data (pos L (moveBeginBackward L (c i) true).beg 0) :: l i
          else l i) ((Call.set (fun _ => 0) v w).at i) = none := by
      rintro ⟨i, hw, hi⟩
      simp only [Call.selects] at hw
      simp only [hw, if_true, Call.at, Spec.Deque.step, Spec.Deque.modify?, List.length_cons,
        pyIndex_first (Nat.succ_pos _)] at hi
      simp at hi
    obtain ⟨f, hres, hall⟩ := hs.good hgood
    refine ⟨f, ?_, fun i => ?_⟩
    · simp only [exec, appendLeft, hff]
      exact hres
    · have hall := hall i
      simp only [exec, appendLeft, hff, Bool.false_eq_true, if_false] at hall ⊢
      constructor
      · intro hw
        simp only [Call.selects] at hw
        obtain ⟨l', h1, h2⟩ := hall.1 hw
        refine ⟨l', ?_, h2⟩
        simp only [hw, if_true, Call.at, Spec.Deque.step, Spec.Deque.modify?, List.length_cons,
          pyIndex_first (Nat.succ_pos _), Option.map_some, List.modify_zero_cons] at h1
        rw [← h1]
        simp [Call.at, Spec.Deque.step, hlt i hw]
      · intro hw
        simp only [Call.selects] at hw
        have := hall.2 hw
        simpa [hw] using this

theorem get?_last {l : List α} : Spec.Deque.get? l (-1) = l.getLast? := by
  cases h : l with
  | nil => simp [Spec.Deque.get?, pyIndex]
  | cons a t =>
    rw [← h, Spec.Deque.get?, pyIndex_last (by simp [h])]
    simp [List.getLast?_eq_getElem?]

theorem get?_first {l : List α} : Spec.Deque.get? l 0 = l.head? := by
  cases h : l with
  | nil => simp [Spec.Deque.get?, pyIndex]
  | cons a t =>
    rw [← h, Spec.Deque.get?, pyIndex_first (by simp [h])]
    simp [List.head?_eq_getElem?]

theorem sim_pop (hL : 2 ≤ L) (h : ∀ i, Rep L (c i) (l i)) (w : Fin B → Bool) (fb : α) :
    SimStep (L := L) cap c l (.pop w) (exec L fb c (.pop w)) := by
  have he := anyEmpty_iff h (w := w)
  have hnone : ∀ i, Spec.Deque.step cap (l i) .pop = none ↔ l i = [] := by
    intro i; simp [Spec.Deque.step]
  constructor
  · rintro ⟨i, hs, hi⟩
    have : anyB (fun i => isEmpty (c i) && w i) = true := he.mpr ⟨i, hs, (hnone i).mp hi⟩
    simp [exec, pop, this, Except.map]
  · intro hn
    have hff : anyB (fun i => isEmpty (c i) && w i) = false := by
      rw [Bool.eq_false_iff]; intro hh
      obtain ⟨i, hw, hi⟩ := he.mp hh
      exact hn ⟨i, hw, (hnone i).mpr hi⟩
    refine ⟨_, by simp only [exec, pop, hff]; rfl, fun i => ?_⟩
    simp only [exec, pop, hff, Bool.false_eq_true, if_false]
    constructor
    · intro hw
      simp only [Call.selects] at hw
      have hl : l i ≠ [] := fun hl => hn ⟨i, hw, (hnone i).mpr hl⟩
      refine ⟨(l i).dropLast, ?_, by rw [hw]; exact (h i).moveEndBackward_true hL hl⟩
      rw [getDefault_item hL h _ _ (fun _ => by omega), get?_last]
      simp [Call.at, Spec.Deque.step, List.getLast?_eq_some_getLast hl]
    · intro hw
      simp only [Call.selects] at hw
      rw [hw, moveEndBackward_false]; exact h i

theorem sim_popLeft (hL : 2 ≤ L) (h : ∀ i, Rep L (c i) (l i)) (w : Fin B → Bool) (fb : α) :
    SimStep (L := L) cap c l (.popLeft w) (exec L fb c (.popLeft w)) := by
  have he := anyEmpty_iff h (w := w)
  have hnone : ∀ i, Spec.Deque.step cap (l i) .popLeft = none ↔ l i = [] := by
    intro i; simp [Spec.Deque.step]
  constructor
  · rintro ⟨i, hs, hi⟩
    have : anyB (fun i => isEmpty (c i) && w i) = true := he.mpr ⟨i, hs, (hnone i).mp hi⟩
    simp [exec, popLeft, this, Except.map]
  · intro hn
    have hff : anyB (fun i => isEmpty (c i) && w i) = false := by
      rw [Bool.eq_false_iff]; intro hh
      obtain ⟨i, hw, hi⟩ := he.mp hh
      exact hn ⟨i, hw, (hnone i).mpr hi⟩
    refine ⟨_, by simp only [exec, popLeft, hff]; rfl, fun i => ?_⟩
    simp only [exec, popLeft, hff, Bool.false_eq_true, if_false]
    constructor
    · intro hw
      simp only [Call.selects] at hw
      have hl : l i ≠ [] := fun hl => hn ⟨i, hw, (hnone i).mpr hl⟩
      refine ⟨(l i).tail, ?_, by rw [hw]; exact (h i).moveBeginForward_true hL hl⟩
      rw [getDefault_item hL h _ _ (fun _ => by omega), get?_first]
      simp [Call.at, Spec.Deque.step, List.head?_eq_some_head hl]
    · intro hw
      simp only [Call.selects] at hw
      rw [hw, moveBeginForward_false]; exact h i

theorem sim_step (hcap : (cap : Int) = L) (hL : 2 ≤ L) (h : ∀ i, Rep L (c i) (l i)) (op : Call B α)
    (hk : ∀ i, (op.at i).KeyWithin L) (fb : α) : SimStep (L := L) cap c l op (exec L fb c op) := by
  cases op with
  | append v w => exact sim_append hcap hL h v w fb
  | appendLeft v w => exact sim_appendLeft hcap hL h v w fb
  | pop w => exact sim_pop hL h w fb
  | popLeft w => exact sim_popLeft hL h w fb
  | get k => exact sim_get hL h k hk fb
  | getDefault k d => exact sim_getDefault hL h k d hk fb
  | set k v w => exact sim_set hcap hL h k v w hk fb
  | modify k f w => exact sim_modify hcap hL h k f w hk fb
  | length => exact sim_length hL h fb
  | clear => exact sim_clear fb

end
end EvoTorch.CList
