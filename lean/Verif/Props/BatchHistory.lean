import Verif.Spec.BatchHistory
/-!
C13: evaluations never outlive the values they describe.
-/
namespace EvoTorch.BatchHistory
variable {V E : Type}

theorem truthful_nan (f : V → List (Option E)) (m : Nat) (hm : 0 < m) (v : V) : Truthful f ⟨v, List.replicate m none⟩ := by
  intro h
  simp only [isEvaluated, List.all_eq_true] at h
  have := h none (List.mem_replicate.mpr ⟨by omega, rfl⟩)
  simp at this

theorem truthful_none (f : V → List (Option E)) (v : V) (r : List (Option E)) (h : none ∈ r) : Truthful f ⟨v, r⟩ := by
  intro h'
  simp only [isEvaluated, List.all_eq_true] at h'
  have := h' none h
  simp at this

theorem alloc_truthful {f : V → List (Option E)} {st : State V E} (h : ∀ a, Truthful f (st.heap a)) (cells : List (Cell V E))
    (hc : ∀ c ∈ cells, Truthful f c) : ∀ a, Truthful f ((alloc st cells).heap a) := by
  intro a
  simp only [alloc]
  split
  · exact hc _ (List.getElem_mem _)
  · exact h a

theorem clear_truthful {f : V → List (Option E)} {m : Nat} (hm : 0 < m) {h g : Nat → Cell V E} (as : List Nat)
    (hg : ∀ a, Truthful f (g a)) (hsame : ∀ a, a ∉ as → h a = g a) : ∀ a, Truthful f (clearEvals m h as a) := by
  intro a
  simp only [clearEvals]
  split
  · exact truthful_nan f m hm _
  · rename_i hn; rw [hsame a hn]; exact hg a

theorem writeVals_other (l : List (Nat × V)) : ∀ (h : Nat → Cell V E) (a : Nat), (∀ p ∈ l, p.1 ≠ a) → writeVals h l a = h a := by
  induction l with
  | nil => intro h a _; rfl
  | cons p l ih =>
    intro h a hne
    obtain ⟨x, v⟩ := p
    rw [writeVals, ih _ _ (fun p hp => hne p (List.mem_cons_of_mem _ hp)), if_neg]
    exact fun he => hne (x, v) (by simp) he.symm

theorem writeVals_ev (l : List (Nat × V)) : ∀ (h : Nat → Cell V E) (a : Nat), (writeVals h l a).ev = (h a).ev := by
  induction l with
  | nil => intro h a; rfl
  | cons p l ih =>
    intro h a
    obtain ⟨x, v⟩ := p
    rw [writeVals, ih]
    split <;> rfl

theorem writeObjs_ok (l : List (Nat × Option V)) : ∀ (h : Nat → Cell V E), (∀ p ∈ l, p.2.isSome) → (writeObjs h l).2 = true := by
  induction l with
  | nil => intro h _; rfl
  | cons p l ih =>
    intro h hs
    obtain ⟨x, v⟩ := p
    cases v with
    | none => have := hs (x, none) (by simp); simp at this
    | some v => exact ih _ (fun p hp => hs p (List.mem_cons_of_mem _ hp))

theorem writeObjs_other (l : List (Nat × Option V)) : ∀ (h : Nat → Cell V E) (a : Nat), (∀ p ∈ l, p.1 ≠ a) →
    (writeObjs h l).1 a = h a := by
  induction l with
  | nil => intro h a _; rfl
  | cons p l ih =>
    intro h a hne
    obtain ⟨x, v⟩ := p
    cases v with
    | none => rfl
    | some v =>
      rw [writeObjs, ih _ _ (fun p hp => hne p (List.mem_cons_of_mem _ hp)), if_neg]
      exact fun he => hne (x, some v) (by simp) he.symm

theorem writeEvals_truthful {f : V → List (Option E)} (l : List (Nat × List (Option E))) : ∀ (h : Nat → Cell V E),
    (∀ a, Truthful f (h a)) → (∀ p ∈ l, p.2 = f (h p.1).val ∨ none ∈ p.2) → ∀ a, Truthful f (writeEvals h l a) := by
  induction l with
  | nil => intro h hh _ a; exact hh a
  | cons p l ih =>
    intro h hh hl
    obtain ⟨x, r⟩ := p
    rw [writeEvals]
    apply ih
    · intro a
      split
      · rename_i he; subst he
        rcases hl (a, r) (by simp) with h1 | h1
        · intro _; exact h1
        · exact truthful_none f _ r h1
      · exact hh a
    · intro p hp
      have := hl p (List.mem_cons_of_mem _ hp)
      have hv : (if p.1 = x then { h p.1 with ev := r } else h p.1).val = (h p.1).val := by split <;> rfl
      rw [hv]; exact this

theorem zip_fst_mem {α β : Type} {l : List α} {r : List β} {a : α} (ha : a ∉ l) : ∀ p ∈ l.zip r, p.1 ≠ a := by
  rintro ⟨x, y⟩ hp rfl
  exact ha (List.of_mem_zip hp).1

theorem mapM_mem {α β : Type} {g : α → Option β} : ∀ {l : List α} {r : List β}, l.mapM g = some r →
    ∀ y ∈ r, ∃ x ∈ l, g x = some y := by
  intro l
  induction l with
  | nil => intro r h y hy; simp at h; subst h; simp at hy
  | cons x l ih =>
    intro r h y hy
    simp only [List.mapM_cons, Option.bind_eq_bind, Option.pure_def, Option.bind_eq_some_iff, Option.some.injEq] at h
    obtain ⟨z, hz, zs, hzs, rfl⟩ := h
    rcases List.mem_cons.mp hy with rfl | hy
    · exact ⟨x, by simp, hz⟩
    · obtain ⟨x', hx', hg⟩ := ih hzs y hy
      exact ⟨x', List.mem_cons_of_mem _ hx', hg⟩

theorem addrs_sub {st : State V E} {b : Nat} {pos as rows : List Nat} (h : addrs st b pos = some as)
    (hr : st.objs[b]? = some rows) : ∀ a ∈ as, a ∈ rows := by
  intro a ha
  simp only [addrs, hr, Option.bind_some] at h
  obtain ⟨i, _, hi⟩ := mapM_mem h a ha
  exact List.mem_of_getElem? hi

theorem exec_truthful (f : V → List (Option E)) (m : Nat) (hm : 0 < m) (st : State V E) (op : Op V E) (hl : Legal f st op)
    (h : ∀ a, Truthful f (st.heap a)) : ∀ a, Truthful f ((exec f m st op).state.heap a) := by
  cases op with
  | new vals =>
    apply alloc_truthful h
    intro c hc
    obtain ⟨v, _, rfl⟩ := List.mem_map.mp hc
    exact truthful_nan f m hm v
  | slice b lo hi step =>
    simp only [exec]
    split
    · exact h
    · split <;> exact h
  | take b idx =>
    simp only [exec]
    split
    · exact h
    · apply alloc_truthful h
      intro c hc
      obtain ⟨a, _, rfl⟩ := List.mem_map.mp hc
      exact h a
  | cat bs =>
    simp only [exec]
    split
    · exact h
    · apply alloc_truthful h
      intro c hc
      obtain ⟨a, _, rfl⟩ := List.mem_map.mp hc
      exact h a
  | setValues b pos vals isObject =>
    simp only [exec]
    split
    · exact h
    · rename_i as has
      split
      · exact h
      · split
        · rename_i hob
          have hok : (writeObjs st.heap (as.zip vals)).2 = true :=
            writeObjs_ok _ _ (fun p hp => hl hob p.2 (List.of_mem_zip hp).2)
          rw [if_pos hok]
          exact clear_truthful hm as h (fun a ha => writeObjs_other _ _ _ (zip_fst_mem ha))
        · split
          · exact h
          · exact clear_truthful hm as h (fun a ha => writeVals_other _ _ _ (zip_fst_mem ha))
  | modifyValues b pos vals keep =>
    simp only [exec]
    split
    · rename_i rows as hr has
      cases keep with
      | true =>
        have : vals = [] := hl rfl
        subst this
        simpa [writeVals] using h
      | false =>
        intro a
        by_cases ha : a ∈ rows
        · intro hev
          simp only [isEvaluated, writeVals_ev, clearEvals, Bool.false_eq_true, if_false, if_pos ha] at hev
          rw [List.all_eq_true] at hev
          have := hev none (List.mem_replicate.mpr ⟨by omega, rfl⟩)
          simp at this
        · have hna : a ∉ as := fun hc => ha (addrs_sub has hr a hc)
          simp only [Bool.false_eq_true, if_false]
          rw [writeVals_other _ _ _ (zip_fst_mem hna)]
          simp only [clearEvals, if_neg ha]
          exact h a
    · exact h
  | setEvals b pos rows =>
    simp only [exec]
    split
    · exact h
    · rename_i as has
      exact writeEvals_truthful _ _ h (hl as has)
  | forget b pos =>
    simp only [exec]
    split
    · exact h
    · exact clear_truthful hm _ h (fun _ _ => rfl)
  | evaluate b =>
    simp only [exec]
    split
    · exact h
    · apply writeEvals_truthful _ _ h
      intro p hp
      obtain ⟨a, _, rfl⟩ := List.mem_map.mp hp
      exact Or.inl rfl

/-- **C13.** For every fitness function, number of objectives, and every legal history of operations on batches that may be views of
each other, each row of each batch that is reported as evaluated carries the evaluation of its current decision values. -/
theorem C13_evaluations_never_stale_partial (f : V → List (Option E)) (m : Nat) (hm : 0 < m) (v0 : V) (ops : List (Op V E))
    (hl : LegalHistory f m (empty m v0) ops) (b : Nat) (rows : List Nat) (hb : (run f m (empty m v0) ops).objs[b]? = some rows)
    (i a : Nat) (hi : rows[i]? = some a) :
    isEvaluated ((run f m (empty m v0) ops).heap a) = true →
      ((run f m (empty m v0) ops).heap a).ev = f ((run f m (empty m v0) ops).heap a).val := by
  have key : ∀ (ops : List (Op V E)) (st : State V E), (∀ a, Truthful f (st.heap a)) → LegalHistory f m st ops →
      ∀ a, Truthful f ((run f m st ops).heap a) := by
    intro ops
    induction ops with
    | nil => intro st h _ a; exact h a
    | cons op rest ih =>
      intro st h hl
      exact ih _ (exec_truthful f m hm st op hl.1 h) hl.2
  exact key ops _ (fun a => truthful_nan f m hm v0) hl a

theorem writeEvals_val (l : List (Nat × List (Option E))) : ∀ (h : Nat → Cell V E) (a : Nat), (writeEvals h l a).val = (h a).val := by
  induction l with
  | nil => intro h a; rfl
  | cons p l ih =>
    intro h a
    obtain ⟨x, r⟩ := p
    rw [writeEvals, ih]
    split <;> rfl

theorem writeEvals_eval (f : V → List (Option E)) (g : Nat → V) (l : List Nat) : ∀ (h : Nat → Cell V E) (a : Nat),
    (a ∈ l → (writeEvals h (l.map fun a => (a, f (g a))) a).ev = f (g a)) ∧
    (a ∉ l → writeEvals h (l.map fun a => (a, f (g a))) a = h a) := by
  induction l with
  | nil => intro h a; simp [writeEvals]
  | cons x l ih =>
    intro h a
    simp only [List.map_cons, writeEvals]
    obtain ⟨h1, h2⟩ := ih (fun y => if y = x then { h y with ev := f (g x) } else h y) a
    constructor
    · intro ha
      by_cases hal : a ∈ l
      · exact h1 hal
      · have hax : a = x := by rcases List.mem_cons.mp ha with h | h; exact h; exact absurd h hal
        rw [h2 hal, if_pos hax, hax]
    · intro ha
      rw [h2 (fun hc => ha (List.mem_cons_of_mem _ hc)), if_neg (fun hc => ha (by simp [hc]))]

/-- **C13 (evaluation).** `evaluate` gives every row of the batch the evaluation of its decision values, does not change any decision
values, and does not touch rows outside of the batch. -/
theorem C13_evaluate_exact (f : V → List (Option E)) (m : Nat) (st : State V E) (b : Nat) (rows : List Nat)
    (hb : st.objs[b]? = some rows) (a : Nat) :
    ((exec f m st (.evaluate b)).state.heap a).val = (st.heap a).val ∧
    (a ∈ rows → ((exec f m st (.evaluate b)).state.heap a).ev = f (st.heap a).val) ∧
    (a ∉ rows → (exec f m st (.evaluate b)).state.heap a = st.heap a) := by
  simp only [exec, hb]
  have := writeEvals_eval f (fun a => (st.heap a).val) rows st.heap a
  exact ⟨writeEvals_val _ _ _, this.1, this.2⟩

/-- A legal history: two solutions, evaluated; a slice view modifies the second row, which thereby becomes unevaluated in the
parent batch as well, while the first row keeps its evaluation. -/
example :
    let f : Nat → List (Option Nat) := fun v => [some (v * v)]
    let ops : List (Op Nat Nat) := [.new [3, 4], .evaluate 0, .slice 0 1 2 1, .setValues 1 [0] [some 5] false, .take 0 [0, 1],
      .setEvals 1 [0] [[some 25]]]
    let st := run f 1 (empty 1 0) ops
    LegalHistory f 1 (empty 1 0) ops ∧
    (st.objs.map fun rows => rows.map fun a => ((st.heap a).val, (st.heap a).ev)) =
      [[(3, [some 9]), (5, [some 25])], [(5, [some 25])], [(3, [some 9]), (5, [none])]] := by
  refine ⟨⟨trivial, trivial, trivial, by simp [Legal], trivial, ?_, trivial⟩, by decide⟩
  intro as has p hp
  have : as = [1] := Option.some.inj (has.symm.trans rfl)
  subst this
  simp only [List.zip_cons_cons, List.zip_nil_right, List.mem_singleton] at hp
  subst hp
  left; rfl

/-- **C13 is false outside of `Legal`, first case**: values written after `access_values(keep_evals=True)` keep the old evaluation
(documented as unsafe). -/
theorem C13_violated_by_keep_evals :
    let f : Nat → List (Option Nat) := fun v => [some (v * v)]
    let st := run f 1 (empty 1 0) [.new [3], .evaluate 0, .modifyValues 0 [0] [5] true]
    isEvaluated (st.heap 0) = true ∧ (st.heap 0).ev ≠ f (st.heap 0).val := by decide

/-- **C13 is false outside of `Legal`, second case**: on an object batch, `set_values` with a first supported and a second unsupported
object raises TypeError after having replaced the first object, without forgetting its evaluation. -/
theorem C13_violated_by_failed_set_values :
    let f : Nat → List (Option Nat) := fun v => [some (v * v)]
    let st := run f 1 (empty 1 0) [.new [3, 4], .evaluate 0]
    let o := exec f 1 st (.setValues 0 [0, 1] [some 5, none] true)
    o.result = .error .typeError ∧ isEvaluated (o.state.heap 0) = true ∧ (o.state.heap 0).ev ≠ f (o.state.heap 0).val :=
  ⟨rfl, by decide⟩

/-- **C13 is false outside of `Legal`, third case**: a tensor obtained with `access_values()`, which forgets the evaluations, is kept; after the batch has been evaluated, a write into the tensor leaves
the new evaluation in place. -/
theorem C13_violated_by_kept_tensor :
    let f : Nat → List (Option Nat) := fun v => [some (v * v)]
    let st := run f 1 (empty 1 0) [.new [3], .modifyValues 0 [] [] false, .evaluate 0, .modifyValues 0 [0] [5] true]
    isEvaluated (st.heap 0) = true ∧ (st.heap 0).ev ≠ f (st.heap 0).val := by decide

end EvoTorch.BatchHistory
