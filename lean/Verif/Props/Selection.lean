import Verif.Proofs.Selection
import Verif.Props.BestWorst
import Mathlib.Tactic.FieldSimp
import Mathlib.Algebra.Order.Field.Basic
import Mathlib.Data.Nat.Cast.Order.Field
import Mathlib.Algebra.Order.Ring.Rat
import Mathlib.Data.Fin.VecNotation
/-!
C15 (single-objective selection), C16 (Pareto ranks), C17 (multi-objective `take_best`), C18 (crowding).
-/
namespace EvoTorch.Selection
open BestWorst (Sense)

section C15
variable {K : Type} [LinearOrder K]

/-- `torch.argsort` sorts: ascending or descending. -/
def SorterSpec (sort : Sorter K) : Prop :=
  ∀ l, IsArgsort (· ≤ ·) l (sort false l) ∧ IsArgsort (· ≥ ·) l (sort true l)

theorem argsort_spec {sort : Sorter K} (h : SorterSpec sort) (s : Sense) (col : List K) :
    IsArgsort (fun a b => NotWorse s a b) col (argsort sort s col) := by
  cases s
  · exact (h col).1
  · exact (h col).2

/-- **C15.** For either sense and every column of evaluations: `argsort` lists every index once, from best to worst; `take_best(k)`
takes `min k n` distinct rows, and none of them is worse than a row left out. -/
theorem C15_argsort_and_take_best {sort : Sorter K} (h : SorterSpec sort) (s : Sense) (col : List K) (k : Nat) :
    (argsort sort s col).Perm (List.range col.length) ∧
    (argsort sort s col).Pairwise (fun i j => ∀ x y, col[i]? = some x → col[j]? = some y → NotWorse s x y) ∧
    (takeBestIndices sort s col k).length = min k col.length ∧
    (takeBestIndices sort s col k).Nodup ∧
    (∀ i ∈ takeBestIndices sort s col k, i < col.length) ∧
    (∀ i ∈ takeBestIndices sort s col k, ∀ j, j ∉ takeBestIndices sort s col k →
      ∀ x y, col[i]? = some x → col[j]? = some y → NotWorse s x y) := by
  have hs := argsort_spec h s col
  refine ⟨hs.1, hs.2, ?_, ?_, ?_, ?_⟩
  · simp [takeBestIndices, hs.length]
  · exact (List.take_sublist k _).nodup hs.nodup
  · intro i hi; exact hs.lt ((List.take_sublist k _).subset hi)
  · intro i hi j hj x y hx hy
    exact hs.take_le k hi hj hx hy

/-- **C15 (extremes).** `argbest` returns the index of a solution that is not worse than any other, `argworst` that of one that is not
better than any other. -/
theorem C15_argbest_argworst {A : BestWorst.Args K} (hA : BestWorst.ArgSpec A) (s : Sense) (col : List K) (hne : col ≠ []) :
    (∃ x, col[BestWorst.argbest A s (col.map .fin)]? = some x ∧ ∀ y ∈ col, NotWorse s x y) ∧
    (∃ x, col[BestWorst.argworst A s (col.map .fin)]? = some x ∧ ∀ y ∈ col, NotWorse s y x) := by
  have hne' : col.map Flt.fin ≠ [] := by simpa using hne
  have hnan : ∀ x ∈ col.map Flt.fin, x.isNan = false := by
    intro x hx; obtain ⟨y, _, rfl⟩ := List.mem_map.mp hx; rfl
  have hmin : ∃ x, col[A.argmin (col.map .fin)]? = some x ∧ ∀ y ∈ col, x ≤ y := by
    have hlt := hA.min_mem _ hne'
    rw [List.length_map] at hlt
    refine ⟨_, List.getElem?_eq_getElem hlt, fun y hy => ?_⟩
    have := hA.min_le _ hnan (.fin col[A.argmin (col.map .fin)]) (by rw [List.getElem?_map, List.getElem?_eq_getElem hlt]; rfl)
      (.fin y) (List.mem_map.mpr ⟨y, hy, rfl⟩)
    simpa [Flt.lt] using this
  have hmax : ∃ x, col[A.argmax (col.map .fin)]? = some x ∧ ∀ y ∈ col, y ≤ x := by
    have hlt := hA.max_mem _ hne'
    rw [List.length_map] at hlt
    refine ⟨_, List.getElem?_eq_getElem hlt, fun y hy => ?_⟩
    have := hA.max_ge _ hnan (.fin col[A.argmax (col.map .fin)]) (by rw [List.getElem?_map, List.getElem?_eq_getElem hlt]; rfl)
      (.fin y) (List.mem_map.mpr ⟨y, hy, rfl⟩)
    simpa [Flt.lt] using this
  cases s
  · exact ⟨hmin, hmax⟩
  · exact ⟨hmax, hmin⟩

/-- A sorter meeting the specification exists. -/
theorem stableArgsort_spec {α : Type} (le : α → α → Bool) (htot : ∀ a b, le a b = true ∨ le b a = true)
    (htr : ∀ a b c, le a b = true → le b c = true → le a c = true) (l : List α) :
    IsArgsort (fun a b => le a b = true) l (stableArgsort le l) := by
  let r : Nat → Nat → Prop := fun i j => (match l[i]?, l[j]? with
    | some x, some y => le x y
    | _, _ => true) = true
  have hperm : (stableArgsort le l).Perm (List.range l.length) := List.perm_insertionSort _ _
  refine ⟨hperm, ?_⟩
  have key : ∀ L : List Nat, (∀ i ∈ L, i < l.length) → (L.insertionSort r).Pairwise r := by
    intro L
    induction L with
    | nil => intro _; simp
    | cons a L ih =>
      intro hL
      have hpw := ih (fun i hi => hL i (List.mem_cons_of_mem _ hi))
      rw [List.insertionSort_cons]
      have hmem : ∀ b ∈ L.insertionSort r, b < l.length := fun b hb =>
        hL b (List.mem_cons_of_mem _ ((List.perm_insertionSort r L).mem_iff.mp hb))
      generalize L.insertionSort r = S at hpw hmem
      have ha : a < l.length := hL a (by simp)
      have hrr : ∀ i j, (hi : i < l.length) → (hj : j < l.length) → (r i j ↔ le l[i] l[j] = true) := by
        intro i j hi hj
        simp only [r, List.getElem?_eq_getElem hi, List.getElem?_eq_getElem hj]
      clear ih
      induction S with
      | nil => simp
      | cons b S ihS =>
        rw [List.orderedInsert_cons]
        have hb := hmem b (by simp)
        rw [List.pairwise_cons] at hpw
        split
        · rename_i hab
          rw [List.pairwise_cons]
          refine ⟨?_, List.pairwise_cons.mpr hpw⟩
          intro c hc
          rcases List.mem_cons.mp hc with rfl | hc'
          · exact hab
          · have hcl := hmem c (List.mem_cons_of_mem _ hc')
            rw [hrr a c ha hcl]
            exact htr _ _ _ ((hrr a b ha hb).mp hab) ((hrr b c hb hcl).mp (hpw.1 c hc'))
        · rename_i hab
          have hba : r b a := by
            rw [hrr b a hb ha]
            rcases htot l[a] l[b] with h | h
            · exact absurd ((hrr a b ha hb).mpr h) hab
            · exact h
          rw [List.pairwise_cons]
          refine ⟨?_, ihS hpw.2 (fun c hc => hmem c (List.mem_cons_of_mem _ hc))⟩
          intro c hc
          rw [List.mem_orderedInsert] at hc
          rcases hc with rfl | hc
          · exact hba
          · exact hpw.1 c hc
  have h := key (List.range l.length) (fun i hi => List.mem_range.mp hi)
  refine List.Pairwise.imp ?_ h
  intro i j hij x y hx hy
  simpa [r, hx, hy] using hij

/-- A sorter, for examples. -/
def exampleSorter : Sorter K := fun d l => stableArgsort (if d then fun a b => decide (b ≤ a) else fun a b => decide (a ≤ b)) l

theorem exampleSorter_spec : SorterSpec (exampleSorter : Sorter K) := by
  intro l
  constructor
  · have := stableArgsort_spec (fun a b : K => decide (a ≤ b)) (fun a b => by simpa using le_total a b)
      (fun a b c h1 h2 => by simp only [decide_eq_true_eq] at *; exact le_trans h1 h2) l
    simpa [exampleSorter] using this
  · have := stableArgsort_spec (fun a b : K => decide (b ≤ a)) (fun a b => by simpa using le_total b a)
      (fun a b c h1 h2 => by simp only [decide_eq_true_eq] at *; exact le_trans h2 h1) l
    simpa [exampleSorter] using this

example : takeBestIndices exampleSorter .min [5, 2, 7, 2] 3 = [1, 3, 0] ∧
    takeBestIndices exampleSorter .max [5, 2, 7, 2] 2 = [2, 0] := by decide

end C15

/-! ### C16 -/

section C16
variable {K : Type} {n m : Nat} [Field K] [LinearOrder K] [IsStrictOrderedRing K]

theorem dominatedBy_utils (senses : Fin m → Sense) (evals : Fin n → Fin m → K) (i j : Fin n) :
    dominatedBy (utils senses evals) i j = true ↔ Dominates senses (evals j) (evals i) := by
  rw [dominatedBy_iff, Dominates]
  have h1 : ∀ o, utils senses evals i o ≤ utils senses evals j o ↔ NotWorse (senses o) (evals j o) (evals i o) := by
    intro o; simp only [utils, NotWorse]; cases senses o <;> simp
  have h2 : ∀ o, utils senses evals i o < utils senses evals j o ↔ StrictlyBetter (senses o) (evals j o) (evals i o) := by
    intro o; simp only [utils, StrictlyBetter]; cases senses o <;> simp
  simp only [h1, h2]

/-- **C16.** For every population, number of objectives and senses, the ranking ends with every solution ranked, and the ranks are the
Pareto ranks; in particular rank 0 means non-dominated. (`crowdsort` is arbitrary: it does not influence the ranks.) -/
theorem C16_pareto_ranks (cs : List (Fin m → K) → List Nat) (senses : Fin m → Sense) (evals : Fin n → Fin m → K) :
    let st := paretoRanks cs (utils senses evals)
    (∀ i, st.unranked i = false) ∧ IsParetoRank senses evals st.ranks ∧
    (∀ i, st.ranks i = 0 ↔ ∀ j, ¬ Dominates senses (evals j) (evals i)) := by
  intro st
  obtain ⟨hinv, hall⟩ := paretoRanks_spec cs (utils senses evals)
  have hrank : IsParetoRank senses evals st.ranks := by
    intro i r
    constructor
    · rintro rfl
      refine ⟨le_refl _, fun j hj hd => ?_⟩
      have := (hinv.up i j (hall i) ((dominatedBy_utils senses evals i j).mpr hd)).2
      exact absurd hj (by simpa [st] using this)
    · rintro ⟨hle, hnd⟩
      by_contra hne
      have hlt : r < st.ranks i := lt_of_le_of_ne hle (Ne.symm hne)
      obtain ⟨j, hd, _, hj⟩ := hinv.prev i (hall i) (by have : r < (paretoRanks cs (utils senses evals)).ranks i := hlt; omega)
      refine hnd j ?_ ((dominatedBy_utils senses evals i j).mp hd)
      have : r < (paretoRanks cs (utils senses evals)).ranks i := hlt
      show r ≤ (paretoRanks cs (utils senses evals)).ranks j
      omega
  refine ⟨hall, hrank, fun i => ?_⟩
  rw [hrank i 0]
  simp

/-- **C16 (termination).** The loop makes at most `n` iterations for `n` solutions: allowing more does not change anything. -/
theorem C16_ranking_terminates (cs : List (Fin m → K) → List Nat) (u : Fin n → Fin m → K) (extra : Nat) :
    ploop cs u (n + extra) (pinit u) = ploop cs u n (pinit u) := by
  apply ploop_more
  · exact pinv_init cs u
  · exact (Finset.card_le_univ _).trans (by simp)

/-- Four solutions, minimising the first objective and maximising the second. -/
example :
    let evals : Fin 4 → Fin 2 → ℚ := ![![1, 5], ![2, 4], ![0, 3], ![3, 3]]
    (List.finRange 4).map (paretoRanks (fun _ => []) (utils ![.min, .max] evals)).ranks = [0, 1, 0, 2] := by decide +kernel

end C16

/-! ### C17, C18 -/

section C17
variable {K : Type} {n m : Nat} [Field K] [LinearOrder K] [IsStrictOrderedRing K]

omit [IsStrictOrderedRing K] in
theorem crowding_length (sortAsc : List K → List Nat) (tol : K) (rows : List (Fin m → K)) :
    (crowding sortAsc tol rows).length = rows.length := by
  have h1 : ∀ (L : List (Fin m)) (g : Fin m → Nat) (d : List (Flt K)),
      (L.foldl (fun d o => d.set (g o) .pinf) d).length = d.length := by
    intro L g
    induction L with
    | nil => intro d; rfl
    | cons o L ih => intro d; rw [List.foldl_cons, ih, List.length_set]
  have h2 : ∀ (L : List Nat) (g : Nat → Nat) (f : Nat → Flt K → Flt K) (d : List (Flt K)),
      (L.foldl (fun d k => d.modify (g k) (f k)) d).length = d.length := by
    intro L g f
    induction L with
    | nil => intro d; rfl
    | cons o L ih => intro d; rw [List.foldl_cons, ih, List.length_modify]
  have h3 : ∀ (L : List (Fin m)) (d : List (Flt K)), (L.foldl (crowdAdd sortAsc tol rows) d).length = d.length := by
    intro L
    induction L with
    | nil => intro d; rfl
    | cons o L ih => intro d; rw [List.foldl_cons, ih]; exact h2 _ _ _ d
  rw [crowding, h3, crowdInit]
  rw [h1, h1, List.length_replicate]

/-- `torch.argsort(..., descending=True)` on the distances. -/
def DescSpec (sortDesc : List (Flt K) → List Nat) : Prop := ∀ l, IsArgsort (fun a b => Flt.lt a b = false) l (sortDesc l)

theorem frontOf_length_le (st : PState n) (r : Nat) : (frontOf st r).length ≤ n := by
  have := List.length_filter_le (fun i => !st.unranked i && st.ranks i == r) (List.finRange n)
  simpa [frontOf] using this

theorem crowd_lt {sortAsc : List K → List Nat} {sortDesc : List (Flt K) → List Nat} (hd : DescSpec sortDesc) (tol : K)
    (u : Fin n → Fin m → K) (i : Fin n) : (paretoRanks (crowdsort sortAsc sortDesc tol) u).crowd i < n := by
  obtain ⟨hinv, hall⟩ := paretoRanks_spec (crowdsort sortAsc sortDesc tol) u
  rw [hinv.crowd i (hall i)]
  have hle := frontOf_length_le (paretoRanks (crowdsort sortAsc sortDesc tol) u) ((paretoRanks (crowdsort sortAsc sortDesc tol) u).ranks i)
  generalize frontOf (paretoRanks (crowdsort sortAsc sortDesc tol) u) _ = F at *
  have hF : (crowding sortAsc tol (F.map u)).length = F.length := by rw [crowding_length]; simp
  have hs := hd (crowding sortAsc tol (F.map u))
  rw [List.getD_eq_getElem?_getD]
  cases hx : (crowdsort sortAsc sortDesc tol (F.map u))[F.idxOf i]? with
  | none => exact i.pos
  | some x =>
    have := hs.lt (List.mem_of_getElem? hx)
    simp only [Option.getD_some]
    omega

/-- **C17.** Multi-objective `take_best(k)` takes `min k n` distinct rows, and never takes a solution while leaving out one of a strictly
better front. -/
theorem C17_take_best_respects_fronts {sortAsc : List K → List Nat} (ha : ∀ l, IsArgsort (· ≤ ·) l (sortAsc l))
    {sortDesc : List (Flt K) → List Nat} (hd : DescSpec sortDesc) (tol : K) (senses : Fin m → Sense)
    (evals : Fin n → Fin m → K) (k : Nat) :
    let cs := crowdsort sortAsc sortDesc tol
    let taken := takeBestMulti sortAsc cs (utils senses evals) k
    taken.length = min k n ∧ taken.Nodup ∧ (∀ i ∈ taken, i < n) ∧
    ∃ rank, IsParetoRank senses evals rank ∧
      ∀ i j : Fin n, i.1 ∈ taken → j.1 ∉ taken → rank i ≤ rank j := by
  intro cs taken
  let st := paretoRanks cs (utils senses evals)
  let combined : List K := (List.finRange n).map fun i => (st.ranks i : K) + 1 / 10 * (st.crowd i : K) / (n : K)
  have hs : IsArgsort (· ≤ ·) combined (sortAsc combined) := ha combined
  have hlen : combined.length = n := by simp [combined]
  have htaken : taken = (sortAsc combined).take k := rfl
  refine ⟨?_, ?_, ?_, st.ranks, (C16_pareto_ranks cs senses evals).2.1, ?_⟩
  · rw [htaken, List.length_take, hs.length, hlen]
  · rw [htaken]; exact (List.take_sublist k _).nodup hs.nodup
  · intro i hi
    rw [htaken] at hi
    have := hs.lt ((List.take_sublist k _).subset hi)
    omega
  · intro i j hi hj
    rw [htaken] at hi hj
    have hget : ∀ i : Fin n, combined[i.1]? = some ((st.ranks i : K) + 1 / 10 * (st.crowd i : K) / (n : K)) := by
      intro i; simp [combined]
    have hle := hs.take_le k hi hj (hget i) (hget j)
    have hn : (0 : K) < n := by exact_mod_cast i.pos
    have hci : (0 : K) ≤ 1 / 10 * (st.crowd i : K) / (n : K) := by positivity
    have hcj : 1 / 10 * (st.crowd j : K) / (n : K) < 1 := by
      rw [div_lt_one hn]
      have h1 : (st.crowd j : K) < n := by exact_mod_cast crowd_lt hd tol (utils senses evals) j
      have h2 : (0 : K) ≤ st.crowd j := by positivity
      linarith
    have : (st.ranks i : K) < st.ranks j + 1 := by linarith
    have : st.ranks i < st.ranks j + 1 := by exact_mod_cast this
    omega

/-- **C18 (partial).** `arg_pareto_sort(crowdsort=True)`: each front lists exactly the solutions of its rank, in order of decreasing
crowding distance (the distance computed among the solutions of that front). Missing: `take_best`, for which the claim is
false (`C18_violated`). -/
theorem C18_pareto_sort_fronts_by_crowding_partial {sortAsc : List K → List Nat}
    {sortDesc : List (Flt K) → List Nat} (hd : DescSpec sortDesc) (tol : K) (senses : Fin m → Sense)
    (evals : Fin n → Fin m → K) (r : Nat) :
    let u := utils senses evals
    let st := paretoRanks (crowdsort sortAsc sortDesc tol) u
    let front := (List.finRange n).filter fun i => st.ranks i == r
    let dist := crowding sortAsc tol (front.map u)
    (sortedFront st r).Perm front ∧
    (sortedFront st r).Pairwise fun i j => ∀ x y, dist[front.idxOf i]? = some x → dist[front.idxOf j]? = some y →
      Flt.lt x y = false := by
  intro u st front dist
  obtain ⟨hinv, hall⟩ := paretoRanks_spec (crowdsort sortAsc sortDesc tol) u
  have hF : frontOf st r = front := frontOf_final (crowdsort sortAsc sortDesc tol) u r
  have hnd : front.Nodup := (List.nodup_finRange n).filter _
  have hlen : dist.length = front.length := by simp [dist, crowding_length]
  have hs : IsArgsort (fun a b => Flt.lt a b = false) dist (sortDesc dist) := hd dist
  have hcrowd : front.map st.crowd = sortDesc dist := by
    apply List.ext_getElem
    · rw [List.length_map, hs.length, hlen]
    · intro k h1 h2
      rw [List.length_map] at h1
      rw [List.getElem_map]
      have hmem : front[k] ∈ front := List.getElem_mem h1
      have hr : st.ranks front[k] = r := by
        have := (List.mem_filter.mp hmem).2; simpa using this
      have := hinv.crowd front[k] (hall _)
      rw [show (paretoRanks (crowdsort sortAsc sortDesc tol) u).ranks front[k] = r from hr,
        show frontOf (paretoRanks (crowdsort sortAsc sortDesc tol) u) r = front from hF, hnd.idxOf_getElem k h1] at this
      rw [show st.crowd front[k] = _ from this, List.getD_eq_getElem?_getD]
      rw [show crowdsort sortAsc sortDesc tol (front.map u) = sortDesc dist from rfl, List.getElem?_eq_getElem h2]
      rfl
  have hsorted : sortedFront st r = (sortDesc dist).filterMap fun k => front[k]? := by
    simp only [sortedFront]
    rw [show ((List.finRange n).filter fun i => st.ranks i == r) = front from rfl, hcrowd]
  rw [hsorted]
  constructor
  · have h1 := hs.1.filterMap (fun k => front[k]?)
    refine h1.trans ?_
    rw [hlen]
    have : ∀ l : List (Fin n), (List.range l.length).filterMap (fun k => l[k]?) = l := by
      intro l
      induction l with
      | nil => simp
      | cons a l ih =>
        rw [List.length_cons, List.range_succ_eq_map, List.filterMap_cons]
        simp only [List.getElem?_cons_zero, List.filterMap_map]
        congr 1
    rw [this]
  · rw [List.pairwise_filterMap]
    refine List.Pairwise.imp ?_ hs.2
    intro a b hab i hi j hj x y hx hy
    have ha := (List.getElem?_eq_some_iff.mp hi)
    have hb := (List.getElem?_eq_some_iff.mp hj)
    obtain ⟨ha1, ha2⟩ := ha
    obtain ⟨hb1, hb2⟩ := hb
    rw [← ha2, hnd.idxOf_getElem] at hx
    rw [← hb2, hnd.idxOf_getElem] at hy
    exact hab x y hx hy

end C17

/-- A descending sorter of distances (NaN first, as PyTorch does), for examples. -/
def exampleDesc {K : Type} [LinearOrder K] : List (Flt K) → List Nat :=
  stableArgsort fun a b => a.isNan || (!b.isNan && !Flt.lt a b)

theorem exampleDesc_spec {K : Type} [LinearOrder K] : DescSpec (exampleDesc : List (Flt K) → List Nat) := by
  intro l
  have h := stableArgsort_spec (fun a b : Flt K => a.isNan || (!b.isNan && !Flt.lt a b))
    (by
      intro a b
      cases a <;> cases b <;> simp [Flt.isNan, Flt.lt]
      exact le_total _ _)
    (by
      intro a b c h1 h2
      cases a <;> cases b <;> cases c <;> simp_all [Flt.isNan, Flt.lt]
      exact le_trans h2 h1) l
  refine ⟨h.1, h.2.imp ?_⟩
  intro i j hij x y hx hy
  have := hij x y hx hy
  cases x <;> cases y <;> simp_all [Flt.isNan, Flt.lt]

/-- Five mutually non-dominated points. -/
def fivePoints : Fin 5 → Fin 2 → ℚ := ![![2, 8], ![6, 4], ![1, 9], ![0, 10], ![10, 0]]

section fronts
variable {K : Type} {n m : Nat} [Field K] [LinearOrder K] [IsStrictOrderedRing K]

omit [Field K] [IsStrictOrderedRing K] in
/-- Ranks have no gaps. -/
theorem IsParetoRank.no_gap {senses : Fin m → Sense} {evals : Fin n → Fin m → K} {rank : Fin n → Nat} (h : IsParetoRank senses evals rank) (i : Fin n) (r : Nat) (hr : r ≤ rank i) :
    ∃ j, rank j = r := by
  by_contra hno
  push Not at hno
  have key : ∀ d, ∀ i, rank i = r + d → False := by
    intro d
    induction d using Nat.strong_induction_on with
    | _ d ih =>
      intro i hi
      apply hno i
      rw [h]
      refine ⟨by omega, fun j hj hdom => ?_⟩
      have hge : r + d ≤ rank j := by
        by_contra hlt
        exact ih (rank j - r) (by omega) j (by omega)
      exact ((h i (r + d)).mp hi).2 j hge hdom
  exact key (rank i - r) i (by omega)

/-- **C16.** `arg_pareto_sort`, with and without crowd sorting, on a batch with solutions: the ranks are the Pareto ranks; front `k` lists exactly the solutions of rank `k`, once each; there are no
empty fronts, and together they list every solution once. -/
theorem C16_pareto_fronts {sortAsc : List K → List Nat} {sortDesc : List (Flt K) → List Nat} (hd : DescSpec sortDesc) (tol : K) (senses : Fin m → Sense) (evals : Fin n → Fin m → K)
    (hn : n ≠ 0) (useCrowd : Bool) :
    ∃ fronts ranks, paretoSort useCrowd (crowdsort sortAsc sortDesc tol) (utils senses evals) = .ok (fronts, ranks) ∧ IsParetoRank senses evals ranks ∧
      fronts.flatten.Perm (List.finRange n) ∧ (∀ front ∈ fronts, front ≠ []) ∧ ∀ k front, fronts[k]? = some front → ∀ i, i ∈ front ↔ ranks i = k := by
  let st := paretoRanks (crowdsort sortAsc sortDesc tol) (utils senses evals)
  let plain : Nat → List (Fin n) := fun r => (List.finRange n).filter fun i => st.ranks i == r
  have hrank : IsParetoRank senses evals st.ranks := (C16_pareto_ranks _ senses evals).2.1
  have hperm : ∀ r, (if useCrowd then sortedFront st r else plain r).Perm (plain r) := by
    intro r
    cases useCrowd with
    | false => exact List.Perm.refl _
    | true => exact (C18_pareto_sort_fronts_by_crowding_partial hd tol senses evals r).1
  have hmem : ∀ r i, i ∈ (if useCrowd then sortedFront st r else plain r) ↔ st.ranks i = r := by
    intro r i
    rw [(hperm r).mem_iff]
    simp [plain]
  have hfold : ∀ (l : List Nat) (a : Nat), (∀ x ∈ l, x ≤ l.foldl max a) ∧ a ≤ l.foldl max a ∧ (l.foldl max a = a ∨ l.foldl max a ∈ l) := by
    intro l
    induction l with
    | nil => simp
    | cons y l ih =>
      intro a
      obtain ⟨h1, h2, h3⟩ := ih (max a y)
      refine ⟨?_, le_trans (le_max_left _ _) h2, ?_⟩
      · intro x hx
        rcases List.mem_cons.mp hx with rfl | hx
        · exact le_trans (le_max_right _ _) h2
        · exact h1 x hx
      · rcases h3 with h3 | h3
        · rw [List.foldl_cons, h3]
          rcases max_choice a y with h | h <;> simp [h]
        · exact Or.inr (List.mem_cons_of_mem _ h3)
  have hle : ∀ i, st.ranks i ≤ maxRank st := fun i => (hfold _ 0).1 _ (List.mem_map.mpr ⟨i, List.mem_finRange i, rfl⟩)
  have hex : ∃ i, st.ranks i = maxRank st := by
    rcases (hfold ((List.finRange n).map st.ranks) 0).2.2 with h | h
    · refine ⟨⟨0, by omega⟩, ?_⟩
      have := hle ⟨0, by omega⟩
      have h' : maxRank st = 0 := h
      omega
    · obtain ⟨i, _, hi⟩ := List.mem_map.mp h
      exact ⟨i, hi⟩
  refine ⟨(List.range (maxRank st + 1)).map fun r => if useCrowd then sortedFront st r else plain r, st.ranks, by simp only [paretoSort, hn, if_false]; rfl, hrank, ?_, ?_, ?_⟩
  · rw [List.perm_ext_iff_of_nodup _ (List.nodup_finRange n)]
    · intro i
      simp only [List.mem_finRange, iff_true, List.mem_flatten, List.mem_map, List.mem_range]
      exact ⟨_, ⟨st.ranks i, Nat.lt_succ_of_le (hle i), rfl⟩, (hmem _ i).mpr rfl⟩
    · rw [List.nodup_flatten]
      constructor
      · intro l hl
        obtain ⟨r, _, rfl⟩ := List.mem_map.mp hl
        exact (hperm r).nodup_iff.mpr ((List.nodup_finRange n).filter _)
      · rw [List.pairwise_map]
        refine List.Pairwise.imp ?_ List.nodup_range
        intro a b hab i hi hj
        exact hab (((hmem a i).mp hi).symm.trans ((hmem b i).mp hj))
  · intro front hf
    obtain ⟨r, hr, rfl⟩ := List.mem_map.mp hf
    obtain ⟨i, hi⟩ := hex
    obtain ⟨j, hj⟩ := hrank.no_gap i r (by rw [hi]; exact Nat.le_of_lt_succ (List.mem_range.mp hr))
    exact List.ne_nil_of_mem ((hmem r j).mpr hj)
  · intro k front hf i
    rw [List.getElem?_map] at hf
    obtain ⟨r, hr, rfl⟩ := Option.map_eq_some_iff.mp hf
    have : r = k := by
      obtain ⟨hlt, he⟩ := List.getElem?_eq_some_iff.mp hr
      rw [← he, List.getElem_range]
    subst this
    exact hmem r i

example : ((paretoSort true (crowdsort (exampleSorter false) exampleDesc (1 / 100000000)) (utils ![.min, .max] (![![1, 5], ![2, 4], ![0, 3], ![3, 3]] : Fin 4 → Fin 2 → ℚ))).toOption.map (·.1)) =
    some [[0, 2], [1], [3]] := by decide +kernel

end fronts

/-- **C18 is false of the code.** Five points on one front, `take_best(3)`: the two extreme points (infinite distance) are taken, and
then point 2 with crowding distance 2/5, although points 0 and 1, with distances 1 and 8/5, are left out: the argsort
permutation of the distances is used as if it were their ranking. -/
theorem C18_violated :
    let cs := crowdsort (exampleSorter false) exampleDesc (1 / 100000000)
    let u := utils ![.max, .max] fivePoints
    crowding (exampleSorter false) (1 / 100000000) ((List.finRange 5).map u) =
      [.fin 1, .fin (8 / 5), .fin (2 / 5), .pinf, .pinf] ∧
    (List.finRange 5).map (paretoRanks cs u).ranks = [0, 0, 0, 0, 0] ∧
    takeBestMulti (exampleSorter false) cs u 3 = [3, 2, 4] := by decide +kernel

end EvoTorch.Selection
