import Verif.Model.Selection
import Verif.Spec.Selection
import Mathlib.Tactic.Linarith
import Mathlib.Order.WellFounded
import Mathlib.Data.Finset.Card
import Mathlib.Data.Fintype.EquivFin
import Mathlib.Order.RelClasses
import Mathlib.Data.Fintype.Card
/-! Lemmas about selection. -/
namespace EvoTorch.Selection
open BestWorst (Sense)

theorem IsArgsort.take_le {α : Type} {r : α → α → Prop} {l : List α} {p : List Nat} (h : IsArgsort r l p) (k : Nat)
    {i j : Nat} (hi : i ∈ p.take k) (hj : j ∉ p.take k) {x y : α} (hx : l[i]? = some x) (hy : l[j]? = some y) : r x y := by
  have hjp : j ∈ p := h.1.mem_iff.mpr (List.mem_range.mpr (List.getElem?_eq_some_iff.mp hy).1)
  have hjd : j ∈ p.drop k := by
    rw [← List.take_append_drop k p, List.mem_append] at hjp
    exact hjp.resolve_left hj
  have h2 := h.2
  rw [← List.take_append_drop k p, List.pairwise_append] at h2
  exact h2.2.2 i hi j hjd x y hx hy

theorem IsArgsort.nodup {α : Type} {r : α → α → Prop} {l : List α} {p : List Nat} (h : IsArgsort r l p) : p.Nodup :=
  h.1.nodup_iff.mpr List.nodup_range

theorem IsArgsort.length {α : Type} {r : α → α → Prop} {l : List α} {p : List Nat} (h : IsArgsort r l p) :
    p.length = l.length := by rw [h.1.length_eq]; simp

theorem IsArgsort.lt {α : Type} {r : α → α → Prop} {l : List α} {p : List Nat} (h : IsArgsort r l p) {i : Nat} (hi : i ∈ p) :
    i < l.length := List.mem_range.mp (h.1.mem_iff.mp hi)

section pareto
variable {K : Type} {n m : Nat} [LinearOrder K]

theorem dominatedBy_iff (u : Fin n → Fin m → K) (i j : Fin n) :
    dominatedBy u i j = true ↔ (∀ o, u i o ≤ u j o) ∧ ∃ o, u i o < u j o := by
  simp [dominatedBy]

theorem dom_irrefl (u : Fin n → Fin m → K) (i : Fin n) : ¬ dominatedBy u i i = true := by
  rw [dominatedBy_iff]; rintro ⟨_, o, h⟩; exact lt_irrefl _ h

theorem dom_trans (u : Fin n → Fin m → K) {i j k : Fin n} (h1 : dominatedBy u i j = true) (h2 : dominatedBy u j k = true) :
    dominatedBy u i k = true := by
  rw [dominatedBy_iff] at *
  obtain ⟨a1, o, b1⟩ := h1
  exact ⟨fun o => le_trans (a1 o) (h2.1 o), o, lt_of_lt_of_le b1 (h2.1 o)⟩

/-- A non-empty set of solutions contains one that is not dominated by any other of the set. -/
theorem exists_maximal (u : Fin n → Fin m → K) (S : Fin n → Prop) (h : ∃ i, S i) :
    ∃ i, S i ∧ ∀ j, S j → ¬ dominatedBy u i j = true := by
  have wf : WellFounded fun a b : Fin n => dominatedBy u b a = true := by
    haveI : IsTrans (Fin n) fun a b => dominatedBy u b a = true := ⟨fun a b c h1 h2 => dom_trans u h2 h1⟩
    haveI : IsIrrefl (Fin n) fun a b => dominatedBy u b a = true := ⟨fun a => dom_irrefl u a⟩
    exact Finite.wellFounded_of_trans_of_irrefl _
  obtain ⟨i, hi⟩ := h
  obtain ⟨x, hx, hmin⟩ := wf.has_min {i | S i} ⟨i, hi⟩
  exact ⟨x, hx, fun j hj hd => hmin j hj hd⟩

variable (cs : List (Fin m → K) → List Nat) (u : Fin n → Fin m → K)

/-- The members of a front found so far. -/
def frontOf (st : PState n) (r : Nat) : List (Fin n) := (List.finRange n).filter fun i => !st.unranked i && st.ranks i == r

/-- Invariant of the ranking loop. -/
structure PInv (st : PState n) : Prop where
  count : ∀ i, st.nDom i = ((Finset.univ.filter fun j => st.unranked j = true ∧ dominatedBy u i j = true).card : Int)
  below : ∀ i, st.unranked i = false → st.ranks i < st.cur
  up : ∀ i j, st.unranked i = false → dominatedBy u i j = true → st.unranked j = false ∧ st.ranks j < st.ranks i
  prev : ∀ i, st.unranked i = false → 0 < st.ranks i →
    ∃ j, dominatedBy u i j = true ∧ st.unranked j = false ∧ st.ranks j + 1 = st.ranks i
  next : ∀ i, st.unranked i = true → 0 < st.cur →
    ∃ j, dominatedBy u i j = true ∧ (st.unranked j = true ∨ st.ranks j + 1 = st.cur)
  crowd : ∀ i, st.unranked i = false →
    st.crowd i = (cs ((frontOf st (st.ranks i)).map u)).getD ((frontOf st (st.ranks i)).idxOf i) 0

theorem pinv_init : PInv cs u (pinit u) := by
  constructor <;> simp [pinit]

theorem newND_iff {st : PState n} (h : PInv cs u st) (i : Fin n) :
    newND st i = true ↔ st.unranked i = true ∧ ∀ j, st.unranked j = true → ¬ dominatedBy u i j = true := by
  simp only [newND, Bool.and_eq_true, beq_iff_eq, h.count i]
  constructor
  · rintro ⟨h1, h2⟩
    refine ⟨h2, fun j hj hd => ?_⟩
    have : (Finset.univ.filter fun j => st.unranked j = true ∧ dominatedBy u i j = true).card = 0 := by exact_mod_cast h1
    rw [Finset.card_eq_zero] at this
    have hm : j ∈ (Finset.univ.filter fun j => st.unranked j = true ∧ dominatedBy u i j = true) := by simp [hj, hd]
    rw [this] at hm
    simp at hm
  · rintro ⟨h1, h2⟩
    refine ⟨?_, h1⟩
    have : (Finset.univ.filter fun j => st.unranked j = true ∧ dominatedBy u i j = true) = ∅ := by
      apply Finset.filter_false_of_mem
      rintro j _ ⟨hj, hd⟩
      exact h2 j hj hd
    rw [this]; rfl

theorem pinv_step {st : PState n} (h : PInv cs u st) : PInv cs u (pstep cs u st) := by
  have hnd := newND_iff cs u h
  have hur : ∀ i, newND st i = true → st.unranked i = true := fun i hi => ((hnd i).mp hi).1
  have hfr_new : frontOf (pstep cs u st) st.cur = (List.finRange n).filter (newND st) := by
    apply List.filter_congr
    intro i _
    simp only [pstep]
    by_cases hi : newND st i = true
    · simp [hi]
    · simp only [hi, if_false, Bool.false_eq_true]
      cases hu : st.unranked i with
      | true => simp
      | false => have := h.below i hu; simp; omega
  have hfr_old : ∀ r, r ≠ st.cur → frontOf (pstep cs u st) r = frontOf st r := by
    intro r hr
    apply List.filter_congr
    intro i _
    simp only [pstep]
    by_cases hi : newND st i = true
    · simp only [hi, if_true, hur i hi]
      simp; omega
    · simp [hi]
  constructor
  · intro i
    simp only [pstep, h.count i]
    have hsplit : (Finset.univ.filter fun j => st.unranked j = true ∧ dominatedBy u i j = true) =
        (Finset.univ.filter fun j => (if newND st j then false else st.unranked j) = true ∧ dominatedBy u i j = true) ∪
        (Finset.univ.filter fun j => newND st j = true ∧ dominatedBy u i j = true) := by
      ext j
      simp only [Finset.mem_filter, Finset.mem_univ, true_and, Finset.mem_union]
      by_cases hj : newND st j = true
      · simp [hj, hur j hj]
      · simp [hj]
    have hdisj : Disjoint
        (Finset.univ.filter fun j => (if newND st j then false else st.unranked j) = true ∧ dominatedBy u i j = true)
        (Finset.univ.filter fun j => newND st j = true ∧ dominatedBy u i j = true) := by
      rw [Finset.disjoint_left]
      intro j h1 h2
      simp only [Finset.mem_filter, Finset.mem_univ, true_and] at h1 h2
      simp [h2.1] at h1
    rw [hsplit, Finset.card_union_of_disjoint hdisj]
    push_cast
    rw [add_sub_cancel_right]
    congr!
  · intro i hi
    simp only [pstep] at hi ⊢
    by_cases hn : newND st i = true
    · simp [hn]
    · simp only [hn, if_false, Bool.false_eq_true] at hi ⊢
      have := h.below i hi; omega
  · intro i j hi hd
    simp only [pstep] at hi ⊢
    by_cases hn : newND st i = true
    · have h1 := (hnd i).mp hn
      have hju : st.unranked j = false := by
        cases hj : st.unranked j with
        | false => rfl
        | true => exact absurd hd (h1.2 j hj)
      have hjn : ¬ newND st j = true := fun hc => by rw [hur j hc] at hju; cases hju
      simp only [hn, hjn, if_true, if_false, Bool.false_eq_true]
      exact ⟨hju, h.below j hju⟩
    · simp only [hn, if_false, Bool.false_eq_true] at hi ⊢
      obtain ⟨h1, h2⟩ := h.up i j hi hd
      have hjn : ¬ newND st j = true := fun hc => by rw [hur j hc] at h1; cases h1
      simp only [hjn, if_false, Bool.false_eq_true]
      exact ⟨h1, h2⟩
  · intro i hi hr
    simp only [pstep] at hi hr ⊢
    by_cases hn : newND st i = true
    · simp only [hn, if_true] at hr ⊢
      have h1 := (hnd i).mp hn
      obtain ⟨j, hd, hj⟩ := h.next i h1.1 hr
      have hju : st.unranked j = false := by
        cases hj : st.unranked j with
        | false => rfl
        | true => exact absurd hd (h1.2 j hj)
      have hjn : ¬ newND st j = true := fun hc => by rw [hur j hc] at hju; cases hju
      refine ⟨j, hd, by simp [hju], ?_⟩
      simp only [hjn, if_false, Bool.false_eq_true]
      rcases hj with hj | hj
      · rw [hju] at hj; cases hj
      · exact hj
    · simp only [hn, if_false, Bool.false_eq_true] at hi hr ⊢
      obtain ⟨j, hd, hj, hjr⟩ := h.prev i hi hr
      have hjn : ¬ newND st j = true := fun hc => by rw [hur j hc] at hj; cases hj
      refine ⟨j, hd, ?_, ?_⟩ <;> simp [hjn, hj, hjr]
  · intro i hi _
    simp only [pstep] at hi ⊢
    by_cases hn : newND st i = true
    · simp [hn] at hi
    · simp only [hn, if_false, Bool.false_eq_true] at hi
      have : ¬ ∀ j, st.unranked j = true → ¬ dominatedBy u i j = true := fun hc => hn ((hnd i).mpr ⟨hi, hc⟩)
      push Not at this
      obtain ⟨j, hj, hd⟩ := this
      refine ⟨j, hd, ?_⟩
      by_cases hjn : newND st j = true
      · right; simp [hjn]
      · left; simp [hjn, hj]
  · intro i hi
    by_cases hn : newND st i = true
    · have hr : (pstep cs u st).ranks i = st.cur := by simp [pstep, hn]
      rw [hr, hfr_new]
      simp [pstep, hn]
    · have hi' : st.unranked i = false := by simpa [pstep, hn] using hi
      have hr : (pstep cs u st).ranks i = st.ranks i := by simp [pstep, hn]
      have hb := h.below i hi'
      rw [hr, hfr_old _ (by omega)]
      have : (pstep cs u st).crowd i = st.crowd i := by simp [pstep, hn]
      rw [this]; exact h.crowd i hi'

/-- Number of unranked solutions. -/
def numUnranked (st : PState n) : Nat := (Finset.univ.filter fun i => st.unranked i = true).card

theorem numUnranked_step {st : PState n} (h : PInv cs u st) (ha : anyUnranked st = true) :
    numUnranked (pstep cs u st) < numUnranked st := by
  simp only [anyUnranked, decide_eq_true_eq] at ha
  obtain ⟨i, hi, hmax⟩ := exists_maximal u (fun i => st.unranked i = true) ha
  have hn : newND st i = true := (newND_iff cs u h i).mpr ⟨hi, hmax⟩
  apply Finset.card_lt_card
  rw [Finset.ssubset_iff_of_subset]
  · refine ⟨i, by simp [hi], by simp [pstep, hn]⟩
  · intro j hj
    simp only [Finset.mem_filter, Finset.mem_univ, true_and, pstep] at hj ⊢
    by_cases hjn : newND st j = true
    · simp [hjn] at hj
    · simpa [hjn] using hj

theorem ploop_spec : ∀ (fuel : Nat) (st : PState n), PInv cs u st → numUnranked st ≤ fuel →
    PInv cs u (ploop cs u fuel st) ∧ ∀ i, (ploop cs u fuel st).unranked i = false := by
  intro fuel
  induction fuel with
  | zero =>
    intro st h hf
    refine ⟨h, fun i => ?_⟩
    have : numUnranked st = 0 := by omega
    rw [numUnranked, Finset.card_eq_zero] at this
    cases hi : st.unranked i with
    | false => exact hi
    | true =>
      have hm : i ∈ Finset.univ.filter fun i => st.unranked i = true := by simp [hi]
      rw [this] at hm; simp at hm
  | succ fuel ih =>
    intro st h hf
    simp only [ploop]
    by_cases ha : anyUnranked st = true
    · rw [if_pos ha]
      exact ih _ (pinv_step cs u h) (by have := numUnranked_step cs u h ha; omega)
    · rw [if_neg ha]
      refine ⟨h, fun i => ?_⟩
      simp only [anyUnranked, decide_eq_true_eq, not_exists, Bool.not_eq_true] at ha
      exact ha i

theorem paretoRanks_spec : PInv cs u (paretoRanks cs u) ∧ ∀ i, (paretoRanks cs u).unranked i = false := by
  apply ploop_spec
  · exact pinv_init cs u
  · simp only [numUnranked]
    exact (Finset.card_le_univ _).trans (by simp)

/-- More iterations do not change the result. -/
theorem ploop_more : ∀ (fuel extra : Nat) (st : PState n), PInv cs u st → numUnranked st ≤ fuel →
    ploop cs u (fuel + extra) st = ploop cs u fuel st := by
  intro fuel
  induction fuel with
  | zero =>
    intro extra st h hf
    cases extra with
    | zero => rfl
    | succ e =>
      have h2 := (ploop_spec cs u 0 st h hf).2
      simp only [ploop] at h2
      have : anyUnranked st = false := by simp [anyUnranked, h2]
      simp [ploop, this]
  | succ fuel ih =>
    intro extra st h hf
    have e : fuel + 1 + extra = (fuel + extra) + 1 := by omega
    rw [e]
    simp only [ploop]
    by_cases ha : anyUnranked st = true
    · rw [if_pos ha, if_pos ha]
      exact ih extra _ (pinv_step cs u h) (by have := numUnranked_step cs u h ha; omega)
    · rw [if_neg ha, if_neg ha]

theorem frontOf_final (r : Nat) :
    frontOf (paretoRanks cs u) r = (List.finRange n).filter fun i => (paretoRanks cs u).ranks i == r := by
  apply List.filter_congr
  intro i _
  simp [(paretoRanks_spec cs u).2 i]

end pareto
end EvoTorch.Selection
