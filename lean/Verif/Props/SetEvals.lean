import Verif.Spec.SetEvals
import Mathlib.Data.List.Nodup
/-!
C14: `SolutionBatch.set_evals` writes exactly the requested evaluations.
-/
namespace EvoTorch.SetEvals
variable {E : Type}

theorem writeRows_length (l : List (Nat × List E)) : ∀ ev : List (List E), (writeRows ev l).length = ev.length := by
  induction l with
  | nil => intro ev; rfl
  | cons p l ih => intro ev; obtain ⟨i, r⟩ := p; simp [writeRows, ih]

theorem writeRows_other (l : List (Nat × List E)) : ∀ (ev : List (List E)) (i : Nat), (∀ p ∈ l, p.1 ≠ i) →
    (writeRows ev l)[i]? = ev[i]? := by
  induction l with
  | nil => intro ev i _; rfl
  | cons p l ih =>
    intro ev i h
    obtain ⟨j, r⟩ := p
    rw [writeRows, ih _ _ (fun p hp => h p (List.mem_cons_of_mem _ hp)),
      List.getElem?_set_ne (h (j, r) (by simp))]

theorem writeRows_mem (l : List (Nat × List E)) : ∀ (ev : List (List E)) (i : Nat) (r : List E),
    (l.map Prod.fst).Nodup → (i, r) ∈ l → i < ev.length → (writeRows ev l)[i]? = some r := by
  induction l with
  | nil => intro ev i r _ h; simp at h
  | cons p l ih =>
    intro ev i r hn h hi
    obtain ⟨j, s⟩ := p
    simp only [List.map_cons, List.nodup_cons] at hn
    rw [writeRows]
    rcases List.mem_cons.mp h with h | h
    · simp only [Prod.mk.injEq] at h
      obtain ⟨rfl, rfl⟩ := h
      rw [writeRows_other _ _ _ (fun p hp hpi => hn.1 (List.mem_map.mpr ⟨p, hp, hpi⟩)), List.getElem?_set_self hi]
    · exact ih _ _ _ hn.2 h (by simpa using hi)

theorem setEvals_eq (nan : E) (m q : Nat) (ev : List (List E)) (evals : Tensor E) (data : Option (Tensor E))
    (sol : Option (List Nat)) :
    setEvals nan m q ev evals data sol =
      match requested nan m q (selected ev sol).length evals data with
      | some rows => ⟨writeRows ev ((selected ev sol).zip rows), .ok ()⟩
      | none => ⟨ev, .error .valueError⟩ := by
  generalize hn : (selected ev sol).length = n
  cases evals with
  | other d => simp [setEvals, requested]
  | vec xs =>
    by_cases hm : m = 1
    · subst hm
      cases data with
      | none =>
        simp only [setEvals, requested, ne_eq, not_true, if_false, List.length_map, hn]
        by_cases hx : xs.length = n <;> simp [hx, List.map_map, Function.comp_def]
      | some d =>
        cases d with
        | other _ => simp [setEvals, requested, hn]
        | vec _ => simp [setEvals, requested, hn]
        | mat c d =>
          simp only [setEvals, requested, ne_eq, not_true, if_false, List.length_map, hn]
          by_cases hx : xs.length = n
          · subst hx
            by_cases hc : c = q
            · by_cases hd : d.length = xs.length
              · simp [hc, hd, List.zipWith_map_left]
              · simp [hc, hd, Ne.symm hd]
            · simp [hc]
          · simp [hx]
    · cases data with
      | none => simp [setEvals, requested, hm]
      | some d => cases d <;> simp [setEvals, requested, hm]
  | mat c rows =>
    cases data with
    | none =>
      simp only [setEvals, requested, hn]
      by_cases hx : rows.length = n
      · by_cases hc : c = m <;> by_cases hc' : c = m + q <;> simp [hx, hc, hc'] <;> split <;> rfl
      · simp [hx]
    | some d =>
      cases d with
      | other _ => simp [setEvals, requested]
      | vec _ => simp [setEvals, requested]
      | mat c' d =>
        simp only [setEvals, requested, hn]
        by_cases hx : rows.length = n
        · subst hx
          by_cases hc : c' = q <;> by_cases h2 : c = m <;> by_cases hd : d.length = rows.length <;>
            simp_all [Ne.symm]
        · simp [hx]

/-- **C14.** For every batch, every shape of arguments and every selection of distinct existing rows: if the arguments are well formed,
the `k`-th selected row becomes the `k`-th requested row and every other row is unchanged; if they are malformed, ValueError is
raised and the whole batch is unchanged. -/
theorem C14_set_evals_exact (nan : E) (m q : Nat) (ev : List (List E)) (evals : Tensor E) (data : Option (Tensor E))
    (sol : Option (List Nat)) (hsel : ∀ l, sol = some l → l.Nodup ∧ ∀ i ∈ l, i < ev.length) :
    let o := setEvals nan m q ev evals data sol
    let sel := sol.getD (List.range ev.length)
    match requested nan m q sel.length evals data with
    | some rows => o.result = .ok () ∧ o.state.length = ev.length ∧ rows.length = sel.length ∧
        (∀ (k i : Nat) (r : List E), sel[k]? = some i → rows[k]? = some r → o.state[i]? = some r) ∧
        (∀ i : Nat, i ∉ sel → o.state[i]? = ev[i]?)
    | none => o.result = .error .valueError ∧ o.state = ev := by
  have hsel' : selected ev sol = sol.getD (List.range ev.length) := by cases sol <;> rfl
  simp only [setEvals_eq, hsel']
  generalize hs : sol.getD (List.range ev.length) = sel
  have hnd : sel.Nodup ∧ ∀ i ∈ sel, i < ev.length := by
    cases sol with
    | none => simp only [Option.getD_none] at hs; subst hs; exact ⟨List.nodup_range, by simp⟩
    | some l => simp only [Option.getD_some] at hs; subst hs; exact hsel _ rfl
  cases hr : requested nan m q sel.length evals data with
  | none => exact ⟨rfl, rfl⟩
  | some rows =>
    have hlen : rows.length = sel.length := by
      unfold requested at hr
      split at hr <;> (try split at hr) <;> (try split at hr) <;> simp at hr <;> subst hr <;> simp_all
    have hfst : (sel.zip rows).map Prod.fst = sel := List.map_fst_zip (by omega)
    refine ⟨rfl, writeRows_length _ _, hlen, ?_, ?_⟩
    · intro k i r h1 h2
      have hmem : (i, r) ∈ sel.zip rows := by
        apply List.mem_of_getElem? (i := k)
        rw [List.getElem?_zip_eq_some]; exact ⟨h1, h2⟩
      exact writeRows_mem _ _ _ _ (by rw [hfst]; exact hnd.1) hmem (hnd.2 i (List.mem_of_getElem? h1))
    · intro i hi
      apply writeRows_other
      rintro ⟨j, r⟩ hp rfl
      exact hi (List.of_mem_zip hp).1

/-- Two objectives and one column of extra data, rows 2 and 0 selected: objective values written, extra data reset to NaN (here -1),
row 1 unchanged; a matrix with one column is refused. -/
example : (setEvals (-1 : Int) 2 1 [[0, 0, 9], [1, 1, 9], [2, 2, 9]] (.mat 2 [[5, 6], [7, 8]]) none (some [2, 0])).state =
      [[7, 8, -1], [1, 1, 9], [5, 6, -1]] ∧
    (setEvals (-1 : Int) 2 1 [[0, 0, 9], [1, 1, 9], [2, 2, 9]] (.mat 1 [[5], [7]]) none (some [2, 0])).state =
      [[0, 0, 9], [1, 1, 9], [2, 2, 9]] := by decide

end EvoTorch.SetEvals
