import Verif.Model.OperatorHeap
import Verif.Props.BatchSharing
/-!
C100: operators leave the batches they are given alone, and return new, unevaluated batches which share no memory with any other.
-/
namespace EvoTorch.OperatorHeap
open EvoTorch.BatchHistory
variable {V E : Type}

/-! ### Specification -/

/-- `after` differs from `before` at most by new batches: every existing batch shows the same values and evaluations; the last batch is new, consists of the solutions `children`,
none of which is evaluated (`m` NaNs), and no existing batch contains one of its rows. -/
structure NewBatchOnly (m : Nat) (before after : State V E) (children : List V) : Prop where
  unchanged : ∀ i < before.objs.length, contents after i = contents before i
  isNew : before.objs.length < after.objs.length
  result : contents after (after.objs.length - 1) = some (children.map fun v => ⟨v, List.replicate m none⟩)
  apart : ∀ (i : Nat) rows res, i < before.objs.length → after.objs[i]? = some rows → after.objs[after.objs.length - 1]? = some res → ∀ a ∈ res, a ∉ rows

/-- A state which the user can reach. -/
def Reachable (f : V → List (Option E)) (m : Nat) (st : State V E) : Prop := ∃ v0 ops, st = run f m (empty m v0) ops

/-! ### Frame -/

/-- `st` has been obtained from `st0` by operations on new batches only. -/
structure Extends (st0 st : State V E) : Prop where
  next : st0.next ≤ st.next
  heap : ∀ x < st0.next, st.heap x = st0.heap x
  len : st0.objs.length ≤ st.objs.length
  old : ∀ (i : Nat), i < st0.objs.length → st.objs[i]? = st0.objs[i]?
  new : ∀ (i : Nat) rows, st0.objs.length ≤ i → st.objs[i]? = some rows → ∀ a ∈ rows, st0.next ≤ a

theorem Extends.refl (st : State V E) : Extends st st :=
  ⟨Nat.le_refl _, fun _ _ => rfl, Nat.le_refl _, fun _ _ => rfl, fun i rows h1 h2 => by rw [List.getElem?_eq_none h1] at h2; cases h2⟩

/-- An operation is local to the new batches: it modifies only those, and takes no slice. -/
def Local (n : Nat) (op : Op V E) : Prop := (∀ b, target op = some b → n ≤ b) ∧ ∀ b lo hi step, op ≠ .slice b lo hi step

theorem Extends.exec {st0 st : State V E} (h : Extends st0 st) (f : V → List (Option E)) (m : Nat) (op : Op V E) (hop : Local st0.objs.length op) :
    Extends st0 (exec f m st op).state := by
  have hheap : ∀ x < st0.next, (BatchHistory.exec f m st op).state.heap x = st0.heap x := by
    intro x hx
    rw [exec_frame f m st op x (Nat.lt_of_lt_of_le hx h.next), h.heap x hx]
    intro b rows hb hr hmem
    have := h.new b rows (hop.1 b hb) hr x hmem
    omega
  rcases exec_objs f m st op with ⟨h1, h2⟩ | ⟨b, lo, hi, step, rows, h1, _⟩ | ⟨cells, _, h1⟩
  · exact ⟨by rw [h2]; exact h.next, hheap, by rw [h1]; exact h.len, fun i hi => by rw [h1]; exact h.old i hi, fun i rows hi hr => by rw [h1] at hr; exact h.new i rows hi hr⟩
  · exact absurd h1 (hop.2 _ _ _ _)
  · have hobjs : (BatchHistory.exec f m st op).state.objs = st.objs ++ [(List.range cells.length).map (st.next + ·)] := by rw [h1]; rfl
    have hnext : (BatchHistory.exec f m st op).state.next = st.next + cells.length := by rw [h1]; rfl
    have := h.next
    have hl := h.len
    refine ⟨by omega, hheap, by simp only [hobjs, List.length_append, List.length_singleton]; omega, fun i hi => ?_, fun i rows hi hr a ha => ?_⟩
    · rw [hobjs, List.getElem?_append_left (Nat.lt_of_lt_of_le hi hl)]; exact h.old i hi
    · rw [hobjs] at hr
      rcases getElem?_snoc _ _ _ _ hr with hr | ⟨_, rfl⟩
      · exact h.new i rows hi hr a ha
      · simp only [List.mem_map, List.mem_range] at ha
        obtain ⟨k, hk, rfl⟩ := ha
        omega

theorem Extends.run {st0 : State V E} (f : V → List (Option E)) (m : Nat) (ops : List (Op V E)) : ∀ st, Extends st0 st → (∀ op ∈ ops, Local st0.objs.length op) →
    Extends st0 (run f m st ops) := by
  induction ops with
  | nil => intro st h _; exact h
  | cons op ops ih => intro st h hl; exact ih _ (h.exec f m op (hl op List.mem_cons_self)) fun o ho => hl o (List.mem_cons_of_mem _ ho)

theorem reachable_alloc {f : V → List (Option E)} {m : Nat} {st : State V E} (h : Reachable f m st) (b : Nat) (rows : List Nat) (hb : st.objs[b]? = some rows) (a : Nat)
    (ha : a ∈ rows) : a < st.next := by
  obtain ⟨v0, ops, rfl⟩ := h
  exact (separated_run f m ops _ [] (separated_empty m v0)).alloc b rows hb a ha

theorem newBatchOnly_of_extends {f : V → List (Option E)} {m : Nat} {st st' : State V E} (hr : Reachable f m st) (h : Extends st st') (hlen : st.objs.length < st'.objs.length)
    (children : List V) (hres : contents st' (st'.objs.length - 1) = some (children.map fun v => ⟨v, List.replicate m none⟩)) : NewBatchOnly m st st' children := by
  refine ⟨fun i hi => ?_, hlen, hres, fun i rows res hi h1 h2 a ha har => ?_⟩
  · have hrow : st.objs[i]? = some st.objs[i] := List.getElem?_eq_getElem hi
    simp only [contents, h.old i hi, hrow, Option.map_some, Option.some.injEq]
    exact List.map_congr_left fun a ha => h.heap a (reachable_alloc hr i _ hrow a ha)
  · rw [h.old i hi] at h1
    have := reachable_alloc hr i rows h1 a har
    have := h.new _ res (by omega) h2 a ha
    omega

/-! ### Values written -/

theorem writeVals_nodup (l : List (Nat × V)) : ∀ (h : Nat → Cell V E) (a : Nat) (v : V), (l.map Prod.fst).Nodup → (a, v) ∈ l → writeVals h l a = { h a with val := v } := by
  induction l with
  | nil => intro h a v _ hm; cases hm
  | cons p l ih =>
    intro h a v hn hm
    obtain ⟨b, w⟩ := p
    simp only [List.map_cons, List.nodup_cons] at hn
    rw [writeVals]
    rcases List.mem_cons.1 hm with heq | hm'
    · cases heq
      rw [writeVals_other]
      · simp
      · intro p hp heq
        exact hn.1 (heq ▸ List.mem_map_of_mem hp)
    · have hne : a ≠ b := by
        intro heq
        have h1 : a ∈ l.map Prod.fst := List.mem_map.2 ⟨(a, v), hm', rfl⟩
        exact hn.1 (heq ▸ h1)
      rw [ih _ a v hn.2 hm']
      simp [hne]

theorem zip_fst_nodup {α β : Type} {l : List α} (r : List β) (h : l.Nodup) : ((l.zip r).map Prod.fst).Nodup := by
  induction l generalizing r with
  | nil => simp
  | cons a l ih =>
    cases r with
    | nil => simp
    | cons b r =>
      simp only [List.nodup_cons] at h
      simp only [List.zip_cons_cons, List.map_cons, List.nodup_cons]
      refine ⟨?_, ih r h.2⟩
      rintro hm
      obtain ⟨p, hp, rfl⟩ := List.mem_map.1 hm
      exact h.1 (List.of_mem_zip hp).1

theorem range_map_nodup (k n : Nat) : ((List.range n).map (k + ·)).Nodup := by
  refine List.Pairwise.map _ ?_ List.nodup_range
  intro a b h
  omega

theorem mapM_range_get (rows : List Nat) : (List.range rows.length).mapM (fun (i : Nat) => rows[i]?) = some rows := by
  have : ∀ (idx : List Nat), (∀ i ∈ idx, i < rows.length) → idx.mapM (fun (i : Nat) => rows[i]?) = some (idx.map fun i => rows.getD i 0) := by
    intro idx
    induction idx with
    | nil => intro _; rfl
    | cons i idx ih =>
      intro h
      have hi := h i List.mem_cons_self
      simp [List.mapM_cons, ih fun j hj => h j (List.mem_cons_of_mem _ hj), List.getElem?_eq_getElem hi, List.getD_eq_getElem?_getD]
  rw [this _ fun i hi => List.mem_range.1 hi]
  congr 1
  refine List.ext_getElem (by simp) fun i h1 h2 => ?_
  simp [List.getD_eq_getElem?_getD, h2]

/-- Writing all rows of a batch without evaluations. -/
theorem write_all (h : Nat → Cell V E) (rows : List Nat) (hn : rows.Nodup) (vals : List V) (hl : vals.length = rows.length) (e : List (Option E)) (he : ∀ a ∈ rows, (h a).ev = e) :
    rows.map (writeVals h (rows.zip vals)) = vals.map fun v => ⟨v, e⟩ := by
  refine List.ext_getElem (by simp [hl]) fun i h1 h2 => ?_
  simp only [List.length_map] at h1 h2
  simp only [List.getElem_map]
  rw [writeVals_nodup _ h rows[i] vals[i] (zip_fst_nodup _ hn)]
  · simp [he _ (List.getElem_mem h1)]
  · rw [List.mem_iff_getElem]
    exact ⟨i, by simp only [List.length_zip]; omega, by simp⟩

theorem alloc_last (st : State V E) (cells : List (Cell V E)) : (alloc st cells).objs[st.objs.length]? = some ((List.range cells.length).map (st.next + ·)) := by
  simp [alloc]

theorem alloc_objs_length (st : State V E) (cells : List (Cell V E)) : (alloc st cells).objs.length = st.objs.length + 1 := by
  simp [alloc]

/-- Modifying all rows of the last batch, which has just been allocated. -/
theorem modify_last (f : V → List (Option E)) (m : Nat) (st : State V E) (cells : List (Cell V E)) (vals : List V) (keep : Bool) (hl : vals.length = cells.length)
    (he : keep = true → ∀ c ∈ cells, c.ev = List.replicate m none) :
    let st' := (exec f m (alloc st cells) (.modifyValues st.objs.length (List.range cells.length) vals keep)).state
    st'.objs.length = st.objs.length + 1 ∧ contents st' st.objs.length = some (vals.map fun v => ⟨v, List.replicate m none⟩) := by
  intro st'
  have hrow := alloc_last st cells
  have hadd : addrs (alloc st cells) st.objs.length (List.range cells.length) = some ((List.range cells.length).map (st.next + ·)) := by
    simp only [addrs, hrow, Option.bind_some]
    have := mapM_range_get ((List.range cells.length).map (st.next + ·))
    simpa only [List.length_map, List.length_range] using this
  let rows : List Nat := (List.range cells.length).map (st.next + ·)
  let h0 : Nat → Cell V E := if keep then (alloc st cells).heap else clearEvals m (alloc st cells).heap rows
  have hst : st' = { alloc st cells with heap := writeVals h0 (rows.zip vals) } := by
    show (exec f m (alloc st cells) (.modifyValues st.objs.length (List.range cells.length) vals keep)).state = _
    simp only [exec, hrow, hadd]; rfl
  rw [hst]
  refine ⟨alloc_objs_length st cells, ?_⟩
  simp only [contents, hrow, Option.map_some, Option.some.injEq]
  refine write_all _ _ (range_map_nodup _ _) vals (by simp [hl]) _ ?_
  intro a ha
  cases keep with
  | false => simp [h0, clearEvals, rows, ha]
  | true =>
    simp only [List.mem_map, List.mem_range] at ha
    obtain ⟨k, hk, rfl⟩ := ha
    simp only [h0, if_true, alloc]
    rw [dif_pos ⟨by omega, by omega⟩]
    exact he rfl _ (List.getElem_mem _)

theorem deepcopy_eq (f : V → List (Option E)) (m : Nat) (st : State V E) (b : Nat) (rows : List Nat) (hb : st.objs[b]? = some rows) :
    deepcopy f m st b = alloc st (rows.map st.heap) := by
  simp only [deepcopy, hb, Option.getD_some, exec, addrs, Option.bind_some, mapM_range_get]

/-- **C100 (mutation).** Mutating any batch (also a slice, evaluated or not, among any other batches) changes no existing batch; the result is a new batch of as many
unevaluated solutions, with the mutated values. -/
theorem C100_mutation (f : V → List (Option E)) (m : Nat) (g : List V → List V) (hg : ∀ l, (g l).length = l.length) (st : State V E) (hr : Reachable f m st) (b : Nat)
    (src : List (Cell V E)) (hb : contents st b = some src) : NewBatchOnly m st (mutation f m g st b) (g (src.map Cell.val)) := by
  simp only [contents, Option.map_eq_some_iff] at hb
  obtain ⟨rows, hrows, rfl⟩ := hb
  have hvals : (valuesOf st b).getD [] = (rows.map st.heap).map Cell.val := by simp [valuesOf, hrows]
  have hmut : mutation f m g st b = (exec f m (alloc st (rows.map st.heap)) (.modifyValues st.objs.length (List.range (rows.map st.heap).length)
      (g ((rows.map st.heap).map Cell.val)) false)).state := by
    simp only [mutation, hvals, deepcopy_eq f m st b rows hrows, List.length_map]
  rw [hmut]
  have hml := modify_last f m st (rows.map st.heap) (g ((rows.map st.heap).map Cell.val)) false (by rw [hg]; simp) (by simp)
  refine newBatchOnly_of_extends hr ?_ (by rw [hml.1]; omega) _ (by rw [hml.1]; exact hml.2)
  refine Extends.exec ?_ f m _ ⟨?_, by simp⟩
  · have hE := (Extends.refl st).exec f m (.take b (List.range rows.length)) ⟨by simp [target], by simp⟩
    have : (exec f m st (.take b (List.range rows.length))).state = alloc st (rows.map st.heap) := by
      simp only [exec, addrs, hrows, Option.bind_some, mapM_range_get]
    rwa [this] at hE
  · intro c hc
    simp only [target, Option.some.injEq] at hc
    omega

/-- **C100 (cross-over of numeric solutions).** -/
theorem C100_cross_over (f : V → List (Option E)) (m : Nat) (g : List (Cell V E) → List V) (st : State V E) (hr : Reachable f m st) (b : Nat)
    (src : List (Cell V E)) (hb : contents st b = some src) : NewBatchOnly m st (crossOver f m g st b) (g src) := by
  simp only [contents, Option.map_eq_some_iff] at hb
  obtain ⟨rows, hrows, rfl⟩ := hb
  simp only [crossOver, hrows]
  refine newBatchOnly_of_extends hr ((Extends.refl st).exec f m _ ⟨by simp [target], by simp⟩) ?_ _ ?_
  · simp only [exec, alloc_objs_length]; omega
  · simp only [exec, alloc_objs_length, Nat.add_sub_cancel, alloc_contents]

/-- **C100 (Cosyne's permutation).** -/
theorem C100_cosyne_permutation (f : V → List (Option E)) (m : Nat) (g : List (Cell V E) → List V) (hg : ∀ l, (g l).length = l.length) (st : State V E)
    (hr : Reachable f m st) (b : Nat) (src : List (Cell V E)) (hb : contents st b = some src) : NewBatchOnly m st (cosynePermutation f m g st b) (g src) := by
  simp only [contents, Option.map_eq_some_iff] at hb
  obtain ⟨rows, hrows, rfl⟩ := hb
  let cells : List (Cell V E) := (rows.map fun a => (st.heap a).val).map fun v => ⟨v, List.replicate m none⟩
  have hcl : cells.length = rows.length := by simp [cells]
  have hdef : cosynePermutation f m g st b = (exec f m (alloc st cells) (.modifyValues st.objs.length (List.range cells.length) (g (rows.map st.heap)) true)).state := by
    simp only [cosynePermutation, hrows, exec, hcl, cells, List.length_map]
  rw [hdef]
  have hml := modify_last f m st cells (g (rows.map st.heap)) true (by rw [hg, hcl]; simp) (by
    intro _ c hc
    simp only [cells, List.mem_map] at hc
    obtain ⟨_, _, rfl⟩ := hc
    rfl)
  refine newBatchOnly_of_extends hr ?_ (by rw [hml.1]; omega) _ (by rw [hml.1]; exact hml.2)
  refine Extends.exec ?_ f m _ ⟨?_, by simp⟩
  · exact (Extends.refl st).exec f m (.new (rows.map fun a => (st.heap a).val)) ⟨by simp [target], by simp⟩
  · intro c hc
    simp only [target, Option.some.injEq] at hc
    omega

/-! ### Cut and splice -/

theorem run_append (f : V → List (Option E)) (m : Nat) (l1 : List (Op V E)) : ∀ (st : State V E) (l2 : List (Op V E)), run f m st (l1 ++ l2) = run f m (run f m st l1) l2 := by
  induction l1 with
  | nil => intros; rfl
  | cons op l1 ih => intro st l2; exact ih _ _

theorem run_writes (f : V → List (Option E)) (m : Nat) (k : Nat) (A B : List Nat) (l : List (Nat × V × V)) : ∀ (st : State V E), st.objs[k]? = some A → st.objs[k + 1]? = some B →
    (∀ p ∈ l, p.1 < A.length ∧ p.1 < B.length) →
    run f m st (l.flatMap fun ip => [.modifyValues k [ip.1] [ip.2.1] true, .modifyValues (k + 1) [ip.1] [ip.2.2] true]) =
      { st with heap := writeVals st.heap (l.flatMap fun ip => [(A.getD ip.1 0, ip.2.1), (B.getD ip.1 0, ip.2.2)]) } := by
  induction l with
  | nil => intros; rfl
  | cons p l ih =>
    intro st hA hB hl
    obtain ⟨h1, h2⟩ := hl p List.mem_cons_self
    have e1 : addrs st k [p.1] = some [A.getD p.1 0] := by simp [addrs, hA, List.getElem?_eq_getElem h1, List.getD_eq_getElem?_getD]
    have s1 : (exec f m st (.modifyValues k [p.1] [p.2.1] true)).state = { st with heap := writeVals st.heap [(A.getD p.1 0, p.2.1)] } := by
      simp only [exec, hA, e1]; rfl
    have e2 : addrs (V := V) (E := E) { st with heap := writeVals st.heap [(A.getD p.1 0, p.2.1)] } (k + 1) [p.1] = some [B.getD p.1 0] := by
      simp [addrs, hB, List.getElem?_eq_getElem h2, List.getD_eq_getElem?_getD]
    have s2 : (exec f m { st with heap := writeVals st.heap [(A.getD p.1 0, p.2.1)] } (.modifyValues (k + 1) [p.1] [p.2.2] true)).state =
        { st with heap := writeVals (writeVals st.heap [(A.getD p.1 0, p.2.1)]) [(B.getD p.1 0, p.2.2)] } := by
      simp only [exec, hB, e2]; rfl
    simp only [List.flatMap_cons, List.cons_append, List.nil_append, run]
    rw [s1, s2]
    exact ih { st with heap := writeVals (writeVals st.heap [(A.getD p.1 0, p.2.1)]) [(B.getD p.1 0, p.2.2)] } hA hB fun q hq => hl q (List.mem_cons_of_mem _ hq)

/-- **C100 (cut and splice).** The children are the first of each pair, followed by the second of each pair. -/
theorem C100_cut_and_splice (f : V → List (Option E)) (m : Nat) (dummy : V) (g : List (Cell V E) → List (V × V)) (st : State V E) (hr : Reachable f m st) (b : Nat)
    (src : List (Cell V E)) (hb : contents st b = some src) :
    NewBatchOnly m st (cutAndSplice f m dummy g st b) ((g src).map Prod.fst ++ (g src).map Prod.snd) := by
  simp only [contents, Option.map_eq_some_iff] at hb
  obtain ⟨rows, hrows, rfl⟩ := hb
  generalize hp : g (rows.map st.heap) = pairs
  let N := pairs.length
  let k := st.objs.length
  let cells : List (Cell V E) := (List.replicate N dummy).map fun v => ⟨v, List.replicate m none⟩
  have hcl : cells.length = N := by simp [cells]
  let A : List Nat := (List.range N).map (st.next + ·)
  let B : List Nat := (List.range N).map (st.next + N + ·)
  let st2 : State V E := alloc (alloc st cells) cells
  let l : List (Nat × V × V) := (List.range N).zip pairs
  have hA : st2.objs[k]? = some A := by
    simp only [st2, alloc, hcl, k, A]
    rw [List.getElem?_append_left (by simp), List.getElem?_append_right (Nat.le_refl _)]
    simp
  have hB : st2.objs[k + 1]? = some B := by
    simp only [st2, alloc, hcl, k, B]
    rw [List.getElem?_append_right (by simp)]
    simp
  have hll : ∀ p ∈ l, p.1 < A.length ∧ p.1 < B.length := by
    intro p hp
    have : p.1 ∈ List.range N := (List.of_mem_zip hp).1
    simp only [A, B, List.length_map, List.length_range]
    exact ⟨List.mem_range.1 this, List.mem_range.1 this⟩
  let W : List (Nat × V) := l.flatMap fun ip => [(A.getD ip.1 0, ip.2.1), (B.getD ip.1 0, ip.2.2)]
  let st3 : State V E := { st2 with heap := writeVals st2.heap W }
  have hcat : (exec f m st3 (.cat [k, k + 1])).state = alloc st3 ((A ++ B).map st3.heap) := by
    have : ([k, k + 1].mapM fun b => st3.objs[b]?) = some [A, B] := by
      show ([k, k + 1].mapM fun b => st2.objs[b]?) = some [A, B]
      simp [List.mapM_cons, hA, hB]
    simp only [exec, this]
    simp
  have hdef : cutAndSplice f m dummy g st b = alloc st3 ((A ++ B).map st3.heap) := by
    simp only [cutAndSplice, hrows, hp]
    rw [run_append, run_append]
    have h2 : run f m st [.new (List.replicate pairs.length dummy), .new (List.replicate pairs.length dummy)] = st2 := rfl
    rw [h2, run_writes f m k A B l st2 hA hB hll]
    exact hcat
  have hlen3 : st3.objs.length = k + 2 := by simp [st3, st2, alloc, k]
  -- the values
  have hWn : (W.map Prod.fst).Nodup := by
    have hdis : ∀ (l : List (Nat × V × V)), (∀ p ∈ l, p.1 < N) → (l.map Prod.fst).Nodup →
        ((l.flatMap fun ip => [(A.getD ip.1 0, ip.2.1), (B.getD ip.1 0, ip.2.2)]).map Prod.fst).Nodup := by
      intro l
      induction l with
      | nil => intros; simp
      | cons p l ih =>
        intro hlt hnd
        simp only [List.map_cons, List.nodup_cons] at hnd
        have gA : ∀ i < N, A.getD i 0 = st.next + i := by intro i hi; simp [A, List.getD_eq_getElem?_getD, hi]
        have gB : ∀ i < N, B.getD i 0 = st.next + N + i := by intro i hi; simp [B, List.getD_eq_getElem?_getD, hi]
        have hp1 := hlt p List.mem_cons_self
        simp only [List.flatMap_cons, List.cons_append, List.nil_append, List.map_cons, List.nodup_cons]
        have hnot : ∀ q ∈ l, q.1 ≠ p.1 := fun q hq heq => hnd.1 (heq ▸ List.mem_map_of_mem hq)
        refine ⟨?_, ?_, ih (fun q hq => hlt q (List.mem_cons_of_mem _ hq)) hnd.2⟩
        · simp only [List.mem_cons, List.mem_map, List.mem_flatMap]
          rintro (h | ⟨x, ⟨q, hq, hx⟩, h⟩)
          · rw [gA _ hp1, gB _ hp1] at h; omega
          · have hq1 := hlt q (List.mem_cons_of_mem _ hq)
            have := hnot q hq
            rw [gA _ hq1, gB _ hq1] at hx
            rw [gA _ hp1] at h
            simp only [List.mem_cons, List.not_mem_nil, or_false] at hx
            rcases hx with rfl | rfl <;> simp only at h <;> omega
        · simp only [List.mem_map, List.mem_flatMap]
          rintro ⟨x, ⟨q, hq, hx⟩, h⟩
          have hq1 := hlt q (List.mem_cons_of_mem _ hq)
          have := hnot q hq
          rw [gA _ hq1, gB _ hq1] at hx
          rw [gB _ hp1] at h
          simp only [List.mem_cons, List.not_mem_nil, or_false] at hx
          rcases hx with rfl | rfl <;> simp only at h <;> omega
    refine hdis l (fun p hp => List.mem_range.1 (List.of_mem_zip hp).1) ?_
    exact zip_fst_nodup _ List.nodup_range
  have hev : ∀ a, st.next ≤ a → a < st.next + N + N → (st2.heap a).ev = List.replicate m none := by
    intro a h1 h2
    have hc : ∀ c ∈ cells, c.ev = List.replicate m none := by
      intro c hc
      simp only [cells, List.mem_map] at hc
      obtain ⟨_, _, rfl⟩ := hc
      rfl
    simp only [st2, alloc, hcl]
    split
    · exact hc _ (List.getElem_mem _)
    · rw [dif_pos ⟨h1, by omega⟩]
      exact hc _ (List.getElem_mem _)
  have hval : (A ++ B).map st3.heap = ((pairs.map Prod.fst ++ pairs.map Prod.snd).map fun v => (⟨v, List.replicate m none⟩ : Cell V E)) := by
    have hmem : ∀ i (hi : i < N), (i, pairs[i]) ∈ l := by
      intro i hi
      rw [List.mem_iff_getElem]
      have hlen : l.length = N := by simp [l, N]
      exact ⟨i, by omega, by simp [l]⟩
    rw [List.map_append, List.map_append]
    congr 1
    · refine List.ext_getElem (by simp [A, N]) fun i h1 h2 => ?_
      have hi : i < N := by simpa [A] using h1
      simp only [List.getElem_map]
      have hAi : A[i]'(by simpa using h1) = st.next + i := by simp [A]
      rw [hAi]
      have := writeVals_nodup W st2.heap (st.next + i) pairs[i].1 hWn (by
        simp only [W, List.mem_flatMap]
        refine ⟨_, hmem i hi, ?_⟩
        have : A.getD i 0 = st.next + i := by simp [A, List.getD_eq_getElem?_getD, hi]
        rw [this]; simp)
      show writeVals st2.heap W (st.next + i) = _
      rw [this]; dsimp only; rw [hev _ (by omega) (by omega)]
    · refine List.ext_getElem (by simp [B, N]) fun i h1 h2 => ?_
      have hi : i < N := by simpa [B] using h1
      simp only [List.getElem_map]
      have hBi : B[i]'(by simpa using h1) = st.next + N + i := by simp [B]
      rw [hBi]
      have := writeVals_nodup W st2.heap (st.next + N + i) pairs[i].2 hWn (by
        simp only [W, List.mem_flatMap]
        refine ⟨_, hmem i hi, ?_⟩
        have : B.getD i 0 = st.next + N + i := by simp [B, List.getD_eq_getElem?_getD, hi]
        rw [this]; simp)
      show writeVals st2.heap W (st.next + N + i) = _
      rw [this]; dsimp only; rw [hev _ (by omega) (by omega)]
  have hext : Extends st (cutAndSplice f m dummy g st b) := by
    simp only [cutAndSplice, hrows, hp]
    refine Extends.run f m _ st (Extends.refl st) ?_
    intro op hop
    simp only [List.cons_append, List.nil_append, List.mem_cons, List.mem_append, List.mem_flatMap, List.not_mem_nil, or_false] at hop
    rcases hop with rfl | rfl | ⟨_, _, rfl | rfl⟩ | rfl
    · exact ⟨by simp [target], by simp⟩
    · exact ⟨by simp [target], by simp⟩
    · exact ⟨by simp [target], by simp⟩
    · exact ⟨by simp only [target, Option.some.injEq]; omega, by simp⟩
    · exact ⟨by simp [target], by simp⟩
  refine newBatchOnly_of_extends hr hext ?_ _ ?_
  · rw [hdef, alloc_objs_length, hlen3]; omega
  · rw [hdef, alloc_objs_length, Nat.add_sub_cancel, alloc_contents, hval]

/-! ### Non-vacuity: an evaluated batch and a slice of it; the slice is mutated, crossed over and permuted -/

def exampleState : State Nat Nat := run (fun v => [some v]) 1 (empty 1 0) [.new [10, 20, 30], .evaluate 0, .slice 0 1 3 1]

example : Reachable (fun v => [some v]) 1 exampleState := ⟨0, _, rfl⟩

example : (contents exampleState 1).map (·.map fun c => (c.val, c.ev)) = some [(20, [some 20]), (30, [some 30])] := by decide

example : (contents (mutation (fun v => [some v]) 1 (List.map (· + 1)) exampleState 1) 2).map (·.map fun c => (c.val, c.ev)) = some [(21, [none]), (31, [none])] ∧
    (contents (mutation (fun v => [some v]) 1 (List.map (· + 1)) exampleState 1) 0).map (·.map fun c => (c.val, c.ev)) =
      some [(10, [some 10]), (20, [some 20]), (30, [some 30])] := by decide

example : (contents (cutAndSplice (fun v => [some v]) 1 0 (fun _ => [(1, 2), (3, 4)]) exampleState 1) 4).map (·.map fun c => (c.val, c.ev)) =
    some [(1, [none]), (3, [none]), (2, [none]), (4, [none])] := by decide

end EvoTorch.OperatorHeap
