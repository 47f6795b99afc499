import Verif.Props.Selection
import Mathlib.Algebra.BigOperators.Fin
import Mathlib.Algebra.BigOperators.Group.List.Basic
/-!
C76: crowding distances are those of NSGA-II.
-/
namespace EvoTorch.Selection
variable {K : Type} {m : Nat} [Field K] [LinearOrder K]

/-- Specification. The neighbours of row `i` in the order `p` of the values `col` (position before and after it): the normalised
distance between them. -/
def neighbourGap (tol : K) (col : List K) (p : List Nat) (i : Nat) : K :=
  (col.getD (p.getD (p.idxOf i + 1) 0) 0 - col.getD (p.getD (p.idxOf i - 1) 0) 0) /
    max tol (amax col - amin col)

/-- Row `i` is the first or the last in the order `p`. -/
def IsEnd (p : List Nat) (i : Nat) : Prop := p.idxOf i = 0 ∨ p.idxOf i + 1 = p.length

theorem foldModify (g : Nat → Nat) (x : Nat → Flt K) (d : List (Flt K)) (i : Nat) : ∀ N : Nat,
    ((∀ k < N, g k ≠ i) → ((List.range N).foldl (fun d k => d.modify (g k) fun y => Flt.add y (x k)) d)[i]? = d[i]?) ∧
    (∀ k0 < N, g k0 = i → (∀ k < N, g k = i → k = k0) →
      ((List.range N).foldl (fun d k => d.modify (g k) fun y => Flt.add y (x k)) d)[i]? = (d[i]?).map fun y => Flt.add y (x k0)) := by
  intro N
  induction N with
  | zero => exact ⟨fun _ => rfl, fun k0 h => absurd h (by omega)⟩
  | succ N ih =>
    obtain ⟨ih1, ih2⟩ := ih
    rw [List.range_succ, List.foldl_append]
    simp only [List.foldl_cons, List.foldl_nil]
    constructor
    · intro h
      rw [List.getElem?_modify, ih1 (fun k hk => h k (by omega))]
      simp [h N (by omega)]
    · intro k0 hk0 hg huniq
      rw [List.getElem?_modify]
      by_cases hN : g N = i
      · have : N = k0 := huniq N (by omega) hN
        subst this
        rw [ih1 (fun k hk hc => by have := huniq k (by omega) hc; omega)]
        simp [hN]
      · simp only [hN, if_false]
        have hlt : k0 < N := by
          rcases Nat.lt_or_ge k0 N with h | h
          · exact h
          · exact absurd (by have : k0 = N := by omega
                             rw [← this]; exact hg) hN
        rw [ih2 k0 hlt hg (fun k hk hc => huniq k (by omega) hc)]
        simp

theorem idxOf_lt_of_perm {p : List Nat} {N i : Nat} (h : p.Perm (List.range N)) (hi : i < N) : p.idxOf i < p.length :=
  List.idxOf_lt_length_iff.mpr (h.mem_iff.mpr (List.mem_range.mpr hi))

theorem crowdAdd_get {sortAsc : List K → List Nat} (ha : ∀ l, IsArgsort (· ≤ ·) l (sortAsc l)) (tol : K)
    (rows : List (Fin m → K)) (d : List (Flt K)) (o : Fin m) (i : Nat) (hi : i < rows.length) :
    let p := sortAsc (rows.map (· o))
    (IsEnd p i → (crowdAdd sortAsc tol rows d o)[i]? = d[i]?) ∧
    (¬ IsEnd p i → (crowdAdd sortAsc tol rows d o)[i]? =
      (d[i]?).map fun y => Flt.add y (.fin (neighbourGap tol (rows.map (· o)) p i))) := by
  intro p
  have hp : p.Perm (List.range rows.length) := by simpa using (ha (rows.map (· o))).1
  have hlen : p.length = rows.length := by rw [hp.length_eq]; simp
  have hnd : p.Nodup := hp.nodup_iff.mpr List.nodup_range
  have hidx : p.idxOf i < p.length := idxOf_lt_of_perm hp hi
  have hpi : p[p.idxOf i] = i := List.getElem_idxOf hidx
  have hF := foldModify (fun k => p.getD (k + 1) 0)
    (fun k => .fin (((p.map fun i => (rows.map (· o)).getD i 0).getD (k + 2) 0 -
      (p.map fun i => (rows.map (· o)).getD i 0).getD k 0) / denom tol (rows.map (· o)))) d i (rows.length - 2)
  have hgk : ∀ k, k < rows.length - 2 → (p.getD (k + 1) 0 = i ↔ k + 1 = p.idxOf i) := by
    intro k hk
    have hk1 : k + 1 < p.length := by omega
    rw [List.getD_eq_getElem?_getD, List.getElem?_eq_getElem hk1, Option.getD_some]
    constructor
    · intro h; rw [← h, hnd.idxOf_getElem _ hk1]
    · intro h; simp only [h, hpi]
  constructor
  · intro hend
    refine hF.1 (fun k hk hc => ?_)
    have h1 := (hgk k hk).mp hc
    rcases hend with h | h <;> omega
  · intro hend
    simp only [IsEnd, not_or] at hend
    have hk0 : p.idxOf i - 1 < rows.length - 2 := by omega
    have h := hF.2 (p.idxOf i - 1) hk0 ((hgk _ hk0).mpr (by omega)) (fun k hk hc => by
      have := (hgk k hk).mp hc; omega)
    refine h.trans ?_
    congr 1
    funext y
    congr 2
    simp only [neighbourGap, denom]
    have e1 : p.idxOf i - 1 + 2 = p.idxOf i + 1 := by omega
    rw [e1]
    have hg : ∀ k, k < p.length → (p.map fun i => (rows.map (· o)).getD i 0).getD k 0 = (rows.map (· o)).getD (p.getD k 0) 0 := by
      intro k hk
      simp only [List.getD_eq_getElem?_getD, List.getElem?_map, List.getElem?_eq_getElem hk, Option.map_some, Option.getD_some]
    rw [hg _ (by omega), hg _ (by omega)]

theorem foldSet (L : List (Fin m)) (g : Fin m → Nat) (i : Nat) : ∀ d : List (Flt K), i < d.length →
    (L.foldl (fun d o => d.set (g o) .pinf) d)[i]? = if (∃ o ∈ L, g o = i) then some .pinf else d[i]? := by
  induction L with
  | nil => intro d _; simp
  | cons o L ih =>
    intro d hd
    rw [List.foldl_cons, ih _ (by simpa using hd)]
    by_cases h1 : ∃ o' ∈ L, g o' = i
    · rw [if_pos h1, if_pos]
      obtain ⟨o', h, h'⟩ := h1
      exact ⟨o', List.mem_cons_of_mem _ h, h'⟩
    · rw [if_neg h1, List.getElem?_set]
      by_cases h2 : g o = i
      · rw [if_pos h2, if_pos (h2 ▸ hd), if_pos ⟨o, by simp, h2⟩]
      · rw [if_neg h2, if_neg]
        rintro ⟨o', h, h'⟩
        rcases List.mem_cons.mp h with rfl | h
        · exact h2 h'
        · exact h1 ⟨o', h, h'⟩

open Classical in
/-- **C76.** For every front of at least one solution, every number of objectives and every argsort: a solution that is first or last in
the order of some objective has infinite crowding distance; any other has the sum over the objectives of the distances between
its two neighbours in the order of that objective, divided by the objective's range. -/
theorem C76_crowding_distance_nsga2 {sortAsc : List K → List Nat} (ha : ∀ l, IsArgsort (· ≤ ·) l (sortAsc l)) (tol : K)
    (rows : List (Fin m → K)) (i : Nat) (hi : i < rows.length) :
    (crowding sortAsc tol rows)[i]? = some
      (if ∃ o, IsEnd (sortAsc (rows.map (· o))) i then .pinf
       else .fin (∑ o, neighbourGap tol (rows.map (· o)) (sortAsc (rows.map (· o))) i)) := by
  let p : Fin m → List Nat := fun o => sortAsc (rows.map (· o))
  have hp : ∀ o, (p o).Perm (List.range rows.length) := fun o => by simpa [p] using (ha (rows.map (· o))).1
  have hlen : ∀ o, (p o).length = rows.length := fun o => by rw [(hp o).length_eq]; simp
  have hnd : ∀ o, (p o).Nodup := fun o => (hp o).nodup_iff.mpr List.nodup_range
  have hidx : ∀ o, (p o).idxOf i < (p o).length := fun o => idxOf_lt_of_perm (hp o) hi
  have hpi : ∀ o, (p o)[(p o).idxOf i]'(hidx o) = i := fun o => List.getElem_idxOf (hidx o)
  have hhead : ∀ o, (p o).headD 0 = i ↔ (p o).idxOf i = 0 := by
    intro o
    have hl := hlen o
    have hnd' := hnd o
    have hpi' := hidx o
    cases hpo : p o with
    | nil => rw [hpo] at hl; simp at hl; omega
    | cons a t =>
      simp only [List.headD_cons]
      constructor
      · rintro rfl; simp
      · intro h
        rw [List.idxOf_cons] at h
        by_cases hai : a == i
        · simpa using hai
        · simp [hai] at h
  have hlast : ∀ o, (p o).getLastD 0 = i ↔ (p o).idxOf i + 1 = (p o).length := by
    intro o
    have hne : p o ≠ [] := by intro h; have := hlen o; rw [h] at this; simp at this; omega
    rw [List.getLastD_eq_getLast?, List.getLast?_eq_some_getLast hne, Option.getD_some, List.getLast_eq_getElem]
    have hpos : 0 < (p o).length := List.length_pos_iff.mpr hne
    constructor
    · intro h
      have : (p o).idxOf i = (p o).length - 1 := by
        rw [← h, (hnd o).idxOf_getElem]
      omega
    · intro h
      have h2 : (p o).length - 1 = (p o).idxOf i := by omega
      simp only [h2, hpi]
  have hinit : (crowdInit sortAsc rows)[i]? = some (if ∃ o, IsEnd (p o) i then .pinf else .fin 0) := by
    have hlen1 : ∀ (L : List (Fin m)) (g : Fin m → Nat) (d : List (Flt K)),
        (L.foldl (fun d o => d.set (g o) .pinf) d).length = d.length := by
      intro L g
      induction L with
      | nil => intro d; rfl
      | cons o L ih => intro d; rw [List.foldl_cons, ih, List.length_set]
    simp only [crowdInit]
    rw [foldSet _ _ _ _ (by rw [hlen1]; simpa using hi), foldSet _ _ _ _ (by simpa using hi)]
    simp only [List.mem_finRange, true_and]
    have hl : (∃ o, (sortAsc (rows.map (· o))).getLastD 0 = i) ↔ ∃ o, (p o).idxOf i + 1 = (p o).length :=
      exists_congr fun o => hlast o
    have hh : (∃ o, (sortAsc (rows.map (· o))).headD 0 = i) ↔ ∃ o, (p o).idxOf i = 0 :=
      exists_congr fun o => hhead o
    have hE : (∃ o, IsEnd (p o) i) ↔ (∃ o, (p o).idxOf i = 0) ∨ ∃ o, (p o).idxOf i + 1 = (p o).length := by
      simp only [IsEnd, exists_or]
    by_cases h1 : ∃ o, (p o).idxOf i + 1 = (p o).length
    · rw [if_pos (hl.mpr h1), if_pos (hE.mpr (Or.inr h1))]
    · rw [if_neg (fun h => h1 (hl.mp h))]
      by_cases h2 : ∃ o, (p o).idxOf i = 0
      · rw [if_pos (hh.mpr h2), if_pos (hE.mpr (Or.inl h2))]
      · rw [if_neg (fun h => h2 (hh.mp h)), if_neg (fun h => (hE.mp h).elim h2 h1)]
        rw [List.getElem?_replicate, if_pos hi]
  by_cases hend : ∃ o, IsEnd (p o) i
  · rw [if_pos hend] at hinit
    rw [if_pos hend, crowding]
    have : ∀ (L : List (Fin m)) (d : List (Flt K)), d[i]? = some .pinf → (L.foldl (crowdAdd sortAsc tol rows) d)[i]? = some .pinf := by
      intro L
      induction L with
      | nil => intro d h; exact h
      | cons o L ih =>
        intro d h
        rw [List.foldl_cons]
        apply ih
        have := crowdAdd_get ha tol rows d o i hi
        by_cases he : IsEnd (p o) i
        · rw [this.1 he, h]
        · rw [this.2 he, h]; rfl
    exact this _ _ hinit
  · rw [if_neg hend] at hinit
    rw [if_neg hend, crowding]
    have : ∀ (L : List (Fin m)) (d : List (Flt K)) (x : K), d[i]? = some (.fin x) →
        (L.foldl (crowdAdd sortAsc tol rows) d)[i]? = some (.fin (x + (L.map fun o => neighbourGap tol (rows.map (· o)) (p o) i).sum)) := by
      intro L
      induction L with
      | nil => intro d x h; simpa using h
      | cons o L ih =>
        intro d x h
        rw [List.foldl_cons]
        have h2 := (crowdAdd_get ha tol rows d o i hi).2 (fun hc => hend ⟨o, hc⟩)
        rw [h] at h2
        rw [ih _ _ h2, List.map_cons, List.sum_cons, add_assoc]
    rw [this _ _ 0 hinit, zero_add, Fin.sum_univ_def]

example : crowding (exampleSorter false) (1 / 100000000) ((List.finRange 5).map fivePoints) =
    [.fin 1, .fin (8 / 5), .fin (2 / 5), .pinf, .pinf] := by decide +kernel

end EvoTorch.Selection
