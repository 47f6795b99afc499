import Verif.Model.ParetoRuns
import Verif.Props.Selection
import Mathlib.Data.List.Perm.Subperm
/-!
C151: elitist multi-objective runs.
-/
namespace EvoTorch.ParetoRuns
open Selection
open BestWorst (Sense)
variable {K V : Type} [Field K] [LinearOrder K] [IsStrictOrderedRing K] {m : Nat}

/-! ### Specification -/

/-- `a` is nowhere worse than `b`. -/
def Covers (senses : Fin m → Sense) (a b : Fin m → K) : Prop := ∀ o, NotWorse (senses o) (a o) (b o)

/-- The candidates which no candidate dominates. -/
def IsFront (senses : Fin m → Sense) (f : V → Fin m → K) (candidates : List V) (v : V) : Prop := ∀ u ∈ candidates, ¬ Dominates senses (f u) (f v)

/-- In every step of the run, at most `popsize` positions of the candidates are not dominated. -/
def FrontsFit (sortAsc : List K → List Nat) (cs : List (Fin m → K) → List Nat) (senses : Fin m → Sense) (f : V → Fin m → K) (popsize : Nat) : List (List V → List V) → List V → Prop
  | [], _ => True
  | ops :: rest, pop =>
    (∃ front : List Nat, front.length ≤ popsize ∧ ∀ (i : Nat) (v : V), (pop ++ ops pop)[i]? = some v → IsFront senses f (pop ++ ops pop) v → i ∈ front) ∧
    FrontsFit sortAsc cs senses f popsize rest (step sortAsc cs senses f popsize ops pop)

/-! ### Proofs -/

omit [Field K] [IsStrictOrderedRing K] in
theorem covers_trans {senses : Fin m → Sense} {a b c : Fin m → K} (h1 : Covers senses a b) (h2 : Covers senses b c) : Covers senses a c := by
  intro o
  have h1 := h1 o
  have h2 := h2 o
  revert h1 h2
  cases senses o with
  | min => exact fun h1 h2 => le_trans h1 h2
  | max => exact fun h1 h2 => le_trans h2 h1

omit [Field K] [IsStrictOrderedRing K] in
theorem covers_refl {senses : Fin m → Sense} (a : Fin m → K) : Covers senses a a := by
  intro o
  cases senses o with
  | min => exact le_refl _
  | max => exact le_refl _

/-- A solution kept while one that dominates it would be left out: impossible. -/
theorem closed {n : Nat} {sortAsc : List K → List Nat} (ha : ∀ l, IsArgsort (· ≤ ·) l (sortAsc l)) {sortDesc : List (Flt K) → List Nat} (hd : DescSpec sortDesc) (tol : K) (senses : Fin m → Sense)
    (evals : Fin n → Fin m → K) (k : Nat) (i j : Fin n) (hi : i.1 ∈ takeBestMulti sortAsc (crowdsort sortAsc sortDesc tol) (utils senses evals) k)
    (hj : j.1 ∉ takeBestMulti sortAsc (crowdsort sortAsc sortDesc tol) (utils senses evals) k) : ¬ Dominates senses (evals j) (evals i) := by
  obtain ⟨_, _, _, rank, hrank, h⟩ := C17_take_best_respects_fronts ha hd tol senses evals k
  exact ((hrank i (rank i)).1 rfl).2 j (h i j hi hj)

/-- Each solution is covered by a non-dominated one. -/
theorem front_covers {n : Nat} (senses : Fin m → Sense) (evals : Fin n → Fin m → K) (i : Fin n) : ∃ j, Covers senses (evals j) (evals i) ∧ ∀ k, ¬ Dominates senses (evals k) (evals j) := by
  obtain ⟨j, hj, hmax⟩ := exists_maximal (utils senses evals) (fun j => Covers senses (evals j) (evals i)) ⟨i, covers_refl _⟩
  refine ⟨j, hj, fun k hk => ?_⟩
  exact hmax k (covers_trans hk.1 hj) ((dominatedBy_utils senses evals j k).2 hk)

/-- If the front fits, all of it is taken. -/
theorem front_taken {n : Nat} {sortAsc : List K → List Nat} (ha : ∀ l, IsArgsort (· ≤ ·) l (sortAsc l)) {sortDesc : List (Flt K) → List Nat} (hd : DescSpec sortDesc) (tol : K) (senses : Fin m → Sense)
    (evals : Fin n → Fin m → K) (k : Nat) (front : List Nat) (hlen : front.length ≤ k) (hfront : ∀ i : Fin n, (∀ j, ¬ Dominates senses (evals j) (evals i)) → i.1 ∈ front) (i : Fin n)
    (hi : ∀ j, ¬ Dominates senses (evals j) (evals i)) : i.1 ∈ takeBestMulti sortAsc (crowdsort sortAsc sortDesc tol) (utils senses evals) k := by
  obtain ⟨hl, hnd, hlt, rank, hrank, hb⟩ := C17_take_best_respects_fronts ha hd tol senses evals k
  set taken := takeBestMulti sortAsc (crowdsort sortAsc sortDesc tol) (utils senses evals) k with ht
  by_contra hc
  have hr0 : rank i = 0 := by
    rw [hrank i 0]
    exact ⟨Nat.zero_le _, fun j _ => hi j⟩
  -- everything taken is of the front, and so is `i`: too many
  have hsub : (i.1 :: taken) ⊆ front := by
    intro a haa
    rcases List.mem_cons.1 haa with rfl | hat
    · exact hfront i hi
    · have han := hlt a hat
      have hra : rank ⟨a, han⟩ = 0 := by
        have := hb ⟨a, han⟩ i hat hc
        omega
      refine hfront ⟨a, han⟩ fun j => ?_
      exact ((hrank ⟨a, han⟩ 0).1 hra).2 j (Nat.zero_le _)
  have h1 := ((List.nodup_cons.2 ⟨hc, hnd⟩).subperm hsub).length_le
  have hin : i.1 < n := i.2
  have hle : taken.length < n := by
    by_contra hge
    have : taken.length = n := by omega
    have hp : (List.range n).Subperm taken := by
      have h2 : taken.Subperm (List.range n) := hnd.subperm fun a haa => List.mem_range.2 (hlt a haa)
      exact (h2.perm_of_length_le (by simp; omega)).symm.subperm
    exact hc (hp.subset (List.mem_range.2 hin))
  simp only [List.length_cons] at h1
  omega

omit [IsStrictOrderedRing K] in
theorem mem_step {sortAsc : List K → List Nat} {cs : List (Fin m → K) → List Nat} {senses : Fin m → Sense} {f : V → Fin m → K} {popsize : Nat} {ops : List V → List V} {pop : List V} {v : V} :
    v ∈ step sortAsc cs senses f popsize ops pop ↔
      ∃ i ∈ takeBestMulti sortAsc cs (utils senses fun i : Fin (pop ++ ops pop).length => f (pop ++ ops pop)[i]) popsize, (pop ++ ops pop)[i]? = some v := by
  simp [step, List.mem_filterMap]

theorem filterMap_all {cand : List V} : ∀ (idx : List Nat), (∀ i ∈ idx, i < cand.length) → (idx.filterMap fun i => cand[i]?).length = idx.length := by
  intro idx
  induction idx with
  | nil => intro _; rfl
  | cons a idx ih =>
    intro h
    rw [List.filterMap_cons, List.getElem?_eq_getElem (h a (by simp))]
    simp [ih fun i hi => h i (by simp [hi])]

/-! ### Theorems -/

/-- C151: after any number of steps the population has `popsize` solutions. -/
theorem C151_size {sortAsc : List K → List Nat} (ha : ∀ l, IsArgsort (· ≤ ·) l (sortAsc l)) {sortDesc : List (Flt K) → List Nat} (hd : DescSpec sortDesc) (tol : K) (senses : Fin m → Sense) (f : V → Fin m → K)
    (opss : List (List V → List V)) (pop : List V) : (run sortAsc (crowdsort sortAsc sortDesc tol) senses f pop.length opss pop).length = pop.length := by
  have key : ∀ (opss : List (List V → List V)) (p : List V), p.length = pop.length → (run sortAsc (crowdsort sortAsc sortDesc tol) senses f pop.length opss p).length = pop.length := by
    intro opss
    induction opss with
    | nil => exact fun p hp => hp
    | cons ops rest ih =>
      intro p hp
      refine ih _ ?_
      obtain ⟨hl, _, hlt, _⟩ := C17_take_best_respects_fronts ha hd tol senses (fun i : Fin (p ++ ops p).length => f (p ++ ops p)[i]) pop.length
      unfold step
      dsimp only
      rw [filterMap_all _ hlt, hl, List.length_append]
      omega
  exact key opss pop rfl

/-- C151: what is kept in a step are candidates, and no solution is kept while one that dominates it is left out. -/
theorem C151_step {sortAsc : List K → List Nat} (ha : ∀ l, IsArgsort (· ≤ ·) l (sortAsc l)) {sortDesc : List (Flt K) → List Nat} (hd : DescSpec sortDesc) (tol : K) (senses : Fin m → Sense) (f : V → Fin m → K)
    (popsize : Nat) (ops : List V → List V) (pop : List V) :
    (∀ v ∈ step sortAsc (crowdsort sortAsc sortDesc tol) senses f popsize ops pop, v ∈ pop ++ ops pop) ∧
    ∀ v ∈ step sortAsc (crowdsort sortAsc sortDesc tol) senses f popsize ops pop, ∀ u ∈ pop ++ ops pop, Dominates senses (f u) (f v) →
      u ∈ step sortAsc (crowdsort sortAsc sortDesc tol) senses f popsize ops pop := by
  refine ⟨fun v hv => ?_, fun v hv u hu hdom => ?_⟩
  · obtain ⟨i, _, hi⟩ := mem_step.1 hv
    exact List.mem_of_getElem? hi
  · obtain ⟨i, hi, hiv⟩ := mem_step.1 hv
    obtain ⟨j, hj⟩ := List.mem_iff_getElem?.1 hu
    obtain ⟨hil, hie⟩ := List.getElem?_eq_some_iff.1 hiv
    obtain ⟨hjl, hje⟩ := List.getElem?_eq_some_iff.1 hj
    refine mem_step.2 ⟨j, ?_, hj⟩
    by_contra hc
    refine closed ha hd tol senses (fun i : Fin (pop ++ ops pop).length => f (pop ++ ops pop)[i]) popsize ⟨i, hil⟩ ⟨j, hjl⟩ hi hc ?_
    show Dominates senses (f (pop ++ ops pop)[j]) (f (pop ++ ops pop)[i])
    rw [hie, hje]
    exact hdom

/-- C151, partial: as long as the non-dominated candidates fit into the population, whatever is in the population is matched later by something nowhere worse, over any number of steps and for any operators. -/
theorem C151_nothing_lost_partial {sortAsc : List K → List Nat} (ha : ∀ l, IsArgsort (· ≤ ·) l (sortAsc l)) {sortDesc : List (Flt K) → List Nat} (hd : DescSpec sortDesc) (tol : K) (senses : Fin m → Sense)
    (f : V → Fin m → K) (popsize : Nat) (opss : List (List V → List V)) (pop : List V) (hfit : FrontsFit sortAsc (crowdsort sortAsc sortDesc tol) senses f popsize opss pop) (v : V) (hv : v ∈ pop) :
    ∃ u ∈ run sortAsc (crowdsort sortAsc sortDesc tol) senses f popsize opss pop, Covers senses (f u) (f v) := by
  induction opss generalizing pop v with
  | nil => exact ⟨v, hv, covers_refl _⟩
  | cons ops rest ih =>
    obtain ⟨⟨front, hlen, hfr⟩, hrest⟩ := hfit
    obtain ⟨i, hi⟩ := List.mem_iff_getElem?.1 (List.mem_append_left (ops pop) hv)
    obtain ⟨hil, hie⟩ := List.getElem?_eq_some_iff.1 hi
    let evals : Fin (pop ++ ops pop).length → Fin m → K := fun i => f (pop ++ ops pop)[i]
    obtain ⟨j, hcov, hmax⟩ := front_covers senses evals ⟨i, hil⟩
    have htaken := front_taken ha hd tol senses evals popsize front hlen (fun k hk => by
      refine hfr k.1 _ (List.getElem?_eq_getElem k.2) ?_
      intro u hu hdom
      obtain ⟨l, hl⟩ := List.mem_iff_getElem?.1 hu
      obtain ⟨hll, hle⟩ := List.getElem?_eq_some_iff.1 hl
      refine hk ⟨l, hll⟩ ?_
      show Dominates senses (f (pop ++ ops pop)[l]) (f (pop ++ ops pop)[k.1])
      rw [hle]; exact hdom) j hmax
    obtain ⟨u, hu, hcu⟩ := ih (step sortAsc (crowdsort sortAsc sortDesc tol) senses f popsize ops pop) hrest (pop ++ ops pop)[j] (mem_step.2 ⟨j.1, htaken, List.getElem?_eq_getElem j.2⟩)
    refine ⟨u, hu, covers_trans hcu ?_⟩
    have : evals ⟨i, hil⟩ = f v := by show f (pop ++ ops pop)[i] = f v; rw [hie]
    rw [← this]
    exact hcov

/-! ### What does not hold -/

/-- C151 fails if the front does not fit: not even the best value of an objective is kept, although the extreme solutions of a front have an infinite crowding distance and there is place for four solutions.
Both objectives are maximised; the population of four is on one front, the child is a fifth solution of that front; the solution with the best second objective (0, 10) is lost, and the best second objective
falls from 10 to 9. -/
theorem C151_violated_extremes :
    let pop : List (Fin 2 → ℚ) := [![1, 9], ![2, 8], ![0, 10], ![10, 0]]
    let next := step (exampleSorter false) (crowdsort (exampleSorter false) exampleDesc (1 / 100000000)) ![.max, .max] id 4 (fun _ => [![6, 4]]) pop
    (∃ v ∈ pop, v 1 = 10) ∧ (next.map fun v => (v 0, v 1)) = [(6, 4), (10, 0), (1, 9), (2, 8)] ∧ ∀ v ∈ next, v 1 ≤ 9 := by decide +kernel

/-! ### The hypotheses are met -/

/-- Two objectives, both maximised, two places; the child (3, 3) dominates one parent. -/
example : FrontsFit (exampleSorter false) (crowdsort (exampleSorter false) exampleDesc (1 / 100000000)) ![.max, .max] id 2 [fun _ => [![3, 3]]] ([![1, 1], ![0, 5]] : List (Fin 2 → ℚ)) := by
  refine ⟨⟨[1, 2], by decide, ?_⟩, trivial⟩
  intro i v hi hf
  match i with
  | 0 =>
    exfalso
    simp at hi
    subst hi
    refine hf ![3, 3] (by simp) ⟨fun o => ?_, 0, ?_⟩
    · match o with
      | 0 => show (1 : ℚ) ≤ 3; decide +kernel
      | 1 => show (1 : ℚ) ≤ 3; decide +kernel
    · show (1 : ℚ) < 3; decide +kernel
  | 1 => simp
  | 2 => simp
  | i + 3 => simp at hi

end EvoTorch.ParetoRuns
