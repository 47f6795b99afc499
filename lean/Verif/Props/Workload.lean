import Verif.Model.Workload
import Verif.Spec.Workload
import Mathlib.Data.List.Perm.Basic
import Mathlib.Algebra.BigOperators.Group.List.Basic
import Mathlib.Algebra.Group.Nat.Defs
import Mathlib.Data.List.Nodup
import Mathlib.Algebra.Group.Action.Defs
import Mathlib.Algebra.Group.Nat.Even
/-!
C08 (`split_workload`), C09 (`SolutionBatch.split`), C10 (parallel evaluation), C68 (actor seeds), C70 (objective indices).
-/
namespace EvoTorch.Workload

theorem incrementFirst_eq (n : Nat) (l : List Nat) (h : n ≤ l.length) :
    incrementFirst n l = (l.take n).map (· + 1) ++ l.drop n := by
  induction n with
  | zero => simp [incrementFirst]
  | succ n ih =>
    rw [incrementFirst, ih (by omega)]
    apply List.ext_getElem?
    intro i
    rw [List.getElem?_modify, List.getElem?_append, List.getElem?_append]
    simp only [List.length_map, List.length_take, List.getElem?_map, List.getElem?_take, List.getElem?_drop]
    rw [Nat.min_eq_left (by omega), Nat.min_eq_left (by omega)]
    by_cases h1 : i < n
    · have h2 : i < n + 1 := by omega
      have h3 : n ≠ i := by omega
      simp [h1, h2, h3]
    · by_cases h4 : n = i
      · subst h4; simp
      · have h2 : ¬ i < n + 1 := by omega
        have e1 : n + (i - n) = i := by omega
        have e2 : n + 1 + (i - (n + 1)) = i := by omega
        simp [h1, h2, h4, e1, e2]

theorem fair_split (w n : Nat) (hn : 0 < n) :
    incrementFirst (w % n) (List.replicate n (w / n)) =
      List.replicate (w % n) (w / n + 1) ++ List.replicate (n - w % n) (w / n) := by
  have := Nat.mod_lt w hn
  rw [incrementFirst_eq _ _ (by simp; omega)]
  simp [List.take_replicate, Nat.min_eq_left (Nat.le_of_lt this)]

theorem fairSplit_replicate (w n : Nat) (hn : 0 < n) :
    FairSplit w n (List.replicate (w % n) (w / n + 1) ++ List.replicate (n - w % n) (w / n)) := by
  have hlt := Nat.mod_lt w hn
  refine ⟨by simp; omega, ?_, ?_, ?_⟩
  · have h := Nat.div_add_mod w n
    simp only [List.sum_append, List.sum_replicate, smul_eq_mul, Nat.mul_add, Nat.mul_one]
    obtain ⟨k, hk⟩ : ∃ k, n = w % n + k := ⟨n - w % n, by omega⟩
    have : n - w % n = k := by omega
    rw [this]
    conv_rhs => rw [← h]
    conv_rhs => arg 1; arg 1; rw [hk]
    rw [Nat.add_mul]; omega
  · intro a ha b hb
    simp only [List.mem_append, List.mem_replicate] at ha hb
    omega
  · rw [List.pairwise_append]
    refine ⟨?_, ?_, ?_⟩
    · rw [List.pairwise_replicate]; right; exact Nat.le_refl _
    · rw [List.pairwise_replicate]; right; exact Nat.le_refl _
    · intro a ha b hb
      simp only [List.mem_replicate] at ha hb
      omega

/-- **C08.** `split_workload(w, n)` is a fair split, for every workload and every positive number of actors. -/
theorem C08_split_workload_fair (w n : Nat) (hn : 0 < n) :
    ∃ l, splitWorkload w n = .ok l ∧ FairSplit w n l := by
  refine ⟨_, if_neg (Nat.pos_iff_ne_zero.mp hn), ?_⟩
  rw [fair_split w n hn]
  exact fairSplit_replicate w n hn

example : splitWorkload 11 4 = .ok [3, 3, 3, 2] := rfl
example : splitWorkload 2 4 = .ok [1, 1, 0, 0] := rfl

/-! ### C09 -/

theorem sizesByCount_fair (n k : Nat) (hk : 0 < k) : ∃ l, sizesByCount n k = .ok l ∧ FairSplit n k l := by
  refine ⟨_, if_neg (Nat.pos_iff_ne_zero.mp hk), ?_⟩
  have : n - n / k * k = n % k := by
    have := Nat.div_add_mod n k
    rw [Nat.mul_comm]; omega
  rw [this, fair_split n k hk]
  exact fairSplit_replicate n k hk

theorem maxSizeLoop_spec (total m : Nat) (hm : 0 < m) :
    ∀ (n cur : Nat), cur + n * m < total + m → (n = 0 → total ≤ cur) → (n ≠ 0 → cur < total) → cur ≤ total →
      total ≤ cur + n * m →
      (maxSizeLoop total m n cur).sum = total - cur ∧ (maxSizeLoop total m n cur).length = n ∧
      ∀ s ∈ maxSizeLoop total m n cur, 0 < s ∧ s ≤ m := by
  intro n
  induction n with
  | zero => intro cur h1 h2 h3 h4 h5; simp [maxSizeLoop]; omega
  | succ n ih =>
    intro cur h1 h2 h3 h4 h5
    rw [Nat.succ_mul] at h1 h5
    have hc := h3 (by omega)
    simp only [maxSizeLoop, List.sum_cons, List.length_cons, List.mem_cons]
    by_cases hn : n = 0
    · subst hn
      simp only [maxSizeLoop]
      split
      · simp; omega
      · simp; omega
    · have hnm : m ≤ n * m := by
        calc m = 1 * m := (Nat.one_mul m).symm
          _ ≤ n * m := Nat.mul_le_mul_right _ (by omega)
      have hlt : cur + m < total := by omega
      have h := ih (cur + m) (by omega) (fun h => absurd h hn) (fun _ => hlt) (by omega) (by omega)
      rw [if_neg (by omega)]
      refine ⟨by omega, by omega, ?_⟩
      intro s hs
      rcases hs with rfl | hs
      · omega
      · exact h.2.2 s hs

theorem sizesByMax_spec (n m : Nat) (hm : 0 < m) : ∃ l, sizesByMax n m = .ok l ∧ MaxSplit n m l := by
  refine ⟨_, if_neg (Nat.pos_iff_ne_zero.mp hm), ?_⟩
  have h1 := Nat.div_mul_le_self (n + m - 1) m
  have h2 := Nat.lt_div_mul_add (a := n + m - 1) hm
  by_cases hn : n = 0
  · subst hn
    have : (0 + m - 1) / m = 0 := Nat.div_eq_of_lt (by omega)
    rw [this]
    exact ⟨rfl, by simp [maxSizeLoop], by rw [this]; rfl⟩
  · have hz : (n + m - 1) / m ≠ 0 := by
      intro h; rw [h] at h2; simp at h2; omega
    have h := maxSizeLoop_spec n m hm ((n + m - 1) / m) 0 (by omega) (by omega) (fun _ => by omega) (by omega) (by omega)
    exact ⟨by omega, h.2.2, h.2.1⟩

theorem slices_getElem (sizes : List Nat) : ∀ (b i : Nat), i < sizes.length →
    (pieceSlices b sizes)[i]? = some (b + (sizes.take i).sum, b + (sizes.take (i + 1)).sum) := by
  induction sizes with
  | nil => intro b i h; simp at h
  | cons s ss ih =>
    intro b i h
    cases i with
    | zero => simp [pieceSlices]
    | succ i =>
      simp only [pieceSlices, List.getElem?_cons_succ, List.take_succ_cons, List.sum_cons]
      rw [ih (b + s) i (by simpa using h)]
      simp only [Nat.add_assoc]

theorem pieces_flatten_aux {α : Type} (l : List α) (sizes : List Nat) : ∀ b, b + sizes.sum ≤ l.length →
    ((pieceSlices b sizes).map (slice l)).flatten = (l.drop b).take sizes.sum := by
  induction sizes with
  | nil => intro b _; simp [pieceSlices]
  | cons s ss ih =>
    intro b h
    simp only [List.sum_cons] at h
    simp only [pieceSlices, List.map_cons, List.flatten_cons, ih (b + s) (by omega), List.sum_cons]
    simp only [slice, Nat.add_sub_cancel_left, List.take_add, List.drop_drop]

theorem slice_length {α : Type} (l : List α) (b s : Nat) (h : b + s ≤ l.length) : (slice l (b, b + s)).length = s := by
  simp [slice]; omega

theorem pieces_length_aux {α : Type} (l : List α) (sizes : List Nat) : ∀ b, b + sizes.sum ≤ l.length →
    ((pieceSlices b sizes).map (slice l)).map List.length = sizes := by
  induction sizes with
  | nil => intro b _; simp [pieceSlices]
  | cons s ss ih =>
    intro b h
    simp only [List.sum_cons] at h
    simp only [pieceSlices, List.map_cons, ih (b + s) (by omega)]
    rw [slice_length l b s (by omega)]

theorem partition_of_sum {α : Type} (l : List α) (sizes : List Nat) (h : sizes.sum = l.length) :
    Partition l sizes (pieces l sizes) (pieceSlices 0 sizes) := by
  refine ⟨pieces_length_aux l sizes 0 (by omega), ?_, by simp [pieces], ?_⟩
  · rw [pieces, pieces_flatten_aux l sizes 0 (by omega)]; simp [h]
  · intro i p hp
    have hlen : (pieceSlices 0 sizes).length = sizes.length := by
      have := congrArg List.length (pieces_length_aux l sizes 0 (by omega))
      simpa using this
    have hi : i < sizes.length := by
      have := (List.getElem?_eq_some_iff.mp hp).1
      simpa [pieces, hlen] using this
    have hs := slices_getElem sizes 0 i hi
    refine ⟨_, _, hs, ?_, ?_, ?_⟩
    · rw [List.take_add_one, List.sum_append]; omega
    · have hsum : (sizes.take (i + 1)).sum + (sizes.drop (i + 1)).sum = sizes.sum := by
        rw [← List.sum_append, List.take_append_drop]
      omega
    · simp only [pieces, List.getElem?_map, hs, Option.map_some, Option.some.injEq] at hp
      rw [← hp]; rfl

/-- **C09.** Splitting a batch into `k ≥ 1` pieces, or into pieces of at most `m ≥ 1` rows, partitions it; with `k` pieces the sizes
form a fair split, with a maximum size every piece is non-empty and within the limit. -/
theorem C09_split_partitions {α : Type} (l : List α) (k m : Nat) (hk : 0 < k) (hm : 0 < m) :
    (∃ sizes, pieceSizes l.length (some k) none = .ok sizes ∧ FairSplit l.length k sizes ∧
      Partition l sizes (pieces l sizes) (pieceSlices 0 sizes)) ∧
    (∃ sizes, pieceSizes l.length none (some m) = .ok sizes ∧ MaxSplit l.length m sizes ∧
      Partition l sizes (pieces l sizes) (pieceSlices 0 sizes)) := by
  constructor
  · obtain ⟨s, h1, h2⟩ := sizesByCount_fair l.length k hk
    exact ⟨s, h1, h2, partition_of_sum l s h2.sum⟩
  · obtain ⟨s, h1, h2⟩ := sizesByMax_spec l.length m hm
    exact ⟨s, h1, h2, partition_of_sum l s h2.sum⟩

/-- **C09 (refusals).** Giving both or neither of `num_pieces` and `max_size` is refused. -/
theorem C09_split_refusals (n k m : Nat) :
    pieceSizes n (some k) (some m) = .error .valueError ∧ pieceSizes n none none = .error .valueError := ⟨rfl, rfl⟩

example : pieceSizes 7 (some 3) none = .ok [3, 2, 2] ∧ pieceSizes 7 none (some 3) = .ok [3, 3, 1] ∧
    pieces [10, 11, 12, 13, 14, 15, 16] [3, 2, 2] = [[10, 11, 12], [13, 14], [15, 16]] := ⟨rfl, rfl, rfl⟩

/-! ### C10 -/

theorem collect_get {E : Type} (sizes : List Nat) (j i : Nat) (hi : i < sizes.length)
    (hb : (sizes.take i).sum ≤ j) (he : j < (sizes.take (i + 1)).sum) :
    ∀ (arrivals : List (Nat × List E)) (ev : List E), ev.length = sizes.sum →
      (∀ p ∈ arrivals, p.1 < sizes.length ∧ p.2.length = sizes.getD p.1 0) →
      (collect (pieceSlices 0 sizes) ev arrivals).length = sizes.sum ∧
      ((∀ p ∈ arrivals, p.1 ≠ i) → (collect (pieceSlices 0 sizes) ev arrivals)[j]? = ev[j]?) ∧
      (∀ r : List E, (∃ p ∈ arrivals, p.1 = i) → (∀ p ∈ arrivals, p.1 = i → p.2 = r) →
        (collect (pieceSlices 0 sizes) ev arrivals)[j]? = r[j - (sizes.take i).sum]?) := by
  intro arrivals
  induction arrivals with
  | nil => intro ev hl _; exact ⟨hl, fun _ => rfl, fun r h => by obtain ⟨p, hp, _⟩ := h; simp at hp⟩
  | cons a rest ih =>
    intro ev hl hall
    obtain ⟨k, xs⟩ := a
    obtain ⟨hk, hx⟩ := hall (k, xs) (by simp)
    simp only at hk hx
    have hs := slices_getElem sizes 0 k hk
    have hgd : (pieceSlices 0 sizes).getD k (0, 0) = ((sizes.take k).sum, (sizes.take (k + 1)).sum) := by
      rw [List.getD_eq_getElem?_getD, hs]; simp
    have hsplit : ∀ n, (sizes.take n).sum + (sizes.drop n).sum = sizes.sum := by
      intro n; rw [← List.sum_append, List.take_append_drop]
    have hnext : (sizes.take (k + 1)).sum = (sizes.take k).sum + xs.length := by
      rw [List.take_add_one, List.sum_append, hx, List.getD_eq_getElem?_getD, List.getElem?_eq_getElem hk]; simp
    have hlen : (assignSlice ev ((sizes.take k).sum, (sizes.take (k + 1)).sum) xs).length = sizes.sum := by
      have := hsplit (k + 1)
      simp only [assignSlice, List.length_append, List.length_take, List.length_drop]
      omega
    obtain ⟨h1, h2, h3⟩ := ih (assignSlice ev ((sizes.take k).sum, (sizes.take (k + 1)).sum) xs) hlen
      (fun p hp => hall p (List.mem_cons_of_mem _ hp))
    have hmono : ∀ a b : Nat, a ≤ b → (sizes.take a).sum ≤ (sizes.take b).sum := by
      intro a b hab
      obtain ⟨c, rfl⟩ := Nat.exists_eq_add_of_le hab
      rw [List.take_add, List.sum_append]; omega
    simp only [collect, hgd]
    refine ⟨h1, ?_, ?_⟩
    · intro hne
      have hki : k ≠ i := hne (k, xs) (by simp)
      rw [h2 (fun p hp => hne p (List.mem_cons_of_mem _ hp))]
      have h4 := hsplit (k + 1)
      simp only [assignSlice]
      rcases Nat.lt_or_gt_of_ne hki with hlt | hgt
      · have h5 := hmono (k + 1) i hlt
        rw [List.getElem?_append_right (by simp; omega), List.getElem?_drop]
        congr 1
        simp; omega
      · have h5 := hmono (i + 1) k hgt
        rw [List.append_assoc, List.getElem?_append_left (by simp; omega), List.getElem?_take, if_pos (by omega)]
    · intro r hex hr
      by_cases hrest : ∃ p ∈ rest, p.1 = i
      · exact h3 r hrest (fun p hp => hr p (List.mem_cons_of_mem _ hp))
      · have hki : k = i := by
          obtain ⟨p, hp, hpi⟩ := hex
          rcases List.mem_cons.mp hp with rfl | hp
          · exact hpi
          · exact absurd ⟨p, hp, hpi⟩ hrest
        have hxr : xs = r := hr (k, xs) (by simp) hki
        subst hki
        rw [h2 (fun p hp hpi => hrest ⟨p, hp, hpi⟩), hxr]
        rw [hxr] at hnext
        have h4 := hsplit (k + 1)
        simp only [assignSlice]
        rw [List.append_assoc, List.getElem?_append_right (by simp; omega), List.getElem?_append_left]
        · congr 1; simp; omega
        · simp; omega

/-- **C10.** Let the batch be split in any way, let each piece be evaluated by any actor (`evalPiece i` is what the actor that got
piece `i` computes; all of them evaluate each row by the objective function `f`), and let the pieces finish in any order
(`arrivals`). Then every row of the batch ends with the evaluation of its own decision values: the outcome of evaluating
the whole batch sequentially. -/
theorem C10_parallel_evaluation_schedule_independent {X E : Type} (xs : List X) (f : X → E)
    (sizes : List Nat) (hsizes : sizes.sum = xs.length) (evalPiece : Nat → List X → List E)
    (heval : ∀ i p, evalPiece i p = p.map f) (ev : List E) (hev : ev.length = xs.length)
    (arrivals : List (Nat × List E)) (hperm : arrivals.Perm (jobs evalPiece (pieces xs sizes))) :
    collect (pieceSlices 0 sizes) ev arrivals = xs.map f := by
  have hp := partition_of_sum xs sizes hsizes
  have hlenp : (pieces xs sizes).length = sizes.length := by
    have := congrArg List.length hp.sizes; simpa using this
  have hmem : ∀ p ∈ arrivals, ∃ q, (pieces xs sizes)[p.1]? = some q ∧ p.2 = q.map f := by
    intro p hpa
    have := hperm.mem_iff.mp hpa
    simp only [jobs, List.mem_map] at this
    obtain ⟨⟨q, i⟩, hq, rfl⟩ := this
    refine ⟨q, ?_, heval _ _⟩
    have := List.mem_zipIdx_iff_getElem?.mp hq
    simpa using this
  have hwf : ∀ p ∈ arrivals, p.1 < sizes.length ∧ p.2.length = sizes.getD p.1 0 := by
    intro p hpa
    obtain ⟨q, hq, hpq⟩ := hmem p hpa
    have hlt := (List.getElem?_eq_some_iff.mp hq).1
    refine ⟨by omega, ?_⟩
    have := congrArg (fun l => l[p.1]?) hp.sizes
    simp only [List.getElem?_map, hq, Option.map_some] at this
    rw [hpq, List.length_map, List.getD_eq_getElem?_getD, ← this]; rfl
  have hjob : ∀ i, i < sizes.length → ∃ p ∈ arrivals, p.1 = i := by
    intro i hi
    have hi' : i < (pieces xs sizes).length := by omega
    refine ⟨(i, evalPiece i (pieces xs sizes)[i]), hperm.mem_iff.mpr ?_, rfl⟩
    simp only [jobs, List.mem_map]
    refine ⟨((pieces xs sizes)[i], i), ?_, rfl⟩
    rw [List.mem_zipIdx_iff_getElem?]
    simp
  -- every row index lies in some piece
  have hfind : ∀ (sizes : List Nat) (j : Nat), j < sizes.sum →
      ∃ i, i < sizes.length ∧ (sizes.take i).sum ≤ j ∧ j < (sizes.take (i + 1)).sum := by
    intro sizes
    induction sizes with
    | nil => intro j hj; simp at hj
    | cons s ss ih =>
      intro j hj
      rw [List.sum_cons] at hj
      by_cases h : j < s
      · exact ⟨0, by simp, by simp, by simpa using h⟩
      · obtain ⟨i, h1, h2, h3⟩ := ih (j - s) (by omega)
        refine ⟨i + 1, by simpa using h1, ?_, ?_⟩
        · simp only [List.take_succ_cons, List.sum_cons]; omega
        · simp only [List.take_succ_cons, List.sum_cons] at h3 ⊢; omega
  apply List.ext_getElem?
  intro j
  by_cases hj : j < xs.length
  · obtain ⟨i, hi, hb, he⟩ := hfind sizes j (by omega)
    obtain ⟨-, -, h3⟩ := collect_get sizes j i hi hb he arrivals ev (by omega) hwf
    have hi' : i < (pieces xs sizes).length := by omega
    obtain ⟨b, e, hbe, h4, h5, h6⟩ := hp.rows i _ (List.getElem?_eq_getElem hi')
    have hse := slices_getElem sizes 0 i hi
    rw [hse, Option.some.injEq, Prod.mk.injEq] at hbe
    obtain ⟨rfl, rfl⟩ := hbe
    rw [h3 ((pieces xs sizes)[i].map f) (hjob i hi) (by
      intro p hpa hpi
      obtain ⟨q, hq, hpq⟩ := hmem p hpa
      rw [hpi, List.getElem?_eq_getElem hi', Option.some.injEq] at hq
      rw [hpq, hq])]
    rw [List.getElem?_map, List.getElem?_map, h6]
    congr 1
    rw [List.getElem?_take, if_pos (by omega), List.getElem?_drop]
    congr 1; omega
  · have hlen : (collect (pieceSlices 0 sizes) ev arrivals).length = sizes.sum := by
      have : ∀ (arr : List (Nat × List E)) (ev : List E), ev.length = sizes.sum →
          (∀ p ∈ arr, p.1 < sizes.length ∧ p.2.length = sizes.getD p.1 0) →
          (collect (pieceSlices 0 sizes) ev arr).length = sizes.sum := by
        intro arr
        induction arr with
        | nil => intro ev h _; exact h
        | cons a rest ih =>
          intro ev h hall
          obtain ⟨k, ys⟩ := a
          obtain ⟨hk, hx⟩ := hall (k, ys) (by simp)
          have hs := slices_getElem sizes 0 k hk
          simp only [collect, List.getD_eq_getElem?_getD, hs, Option.getD_some]
          refine ih _ ?_ (fun p hp => hall p (List.mem_cons_of_mem _ hp))
          have h1 : (sizes.take (k + 1)).sum = (sizes.take k).sum + ys.length := by
            rw [List.take_add_one, List.sum_append]
            simp only at hx
            rw [hx, List.getD_eq_getElem?_getD]
            simp only at hk
            rw [List.getElem?_eq_getElem hk]; simp
          have h2 : (sizes.take (k + 1)).sum + (sizes.drop (k + 1)).sum = sizes.sum := by
            rw [← List.sum_append, List.take_append_drop]
          simp only [assignSlice, List.length_append, List.length_take, List.length_drop]
          omega
      exact this arrivals ev (by omega) hwf
    rw [List.getElem?_eq_none (by omega), List.getElem?_eq_none (by simp; omega)]

theorem pieces_of_flatten_aux {α : Type} (L : List (List α)) : ∀ pre : List α,
    (pieceSlices pre.length (L.map List.length)).map (slice (pre ++ L.flatten)) = L := by
  induction L with
  | nil => intro pre; simp [pieceSlices]
  | cons x L ih =>
    intro pre
    simp only [List.map_cons, pieceSlices, List.flatten_cons]
    have h := ih (pre ++ x)
    simp only [List.length_append, List.append_assoc] at h
    rw [h]
    simp [slice]

theorem pieces_of_flatten {α : Type} (L : List (List α)) : pieces L.flatten (L.map List.length) = L :=
  pieces_of_flatten_aux L []

/-- **C10 (any evaluator).** Even if the actors' evaluations of different pieces have nothing to do with each other (stochastic
objective, different actor states), as long as each returns one evaluation per row, the outcome does not depend on the order
in which the pieces finish: the batch receives the concatenation of the pieces' evaluations, in row order. -/
theorem C10_parallel_evaluation_rows_in_order {X E : Type} (xs : List X)
    (sizes : List Nat) (hsizes : sizes.sum = xs.length) (evalPiece : Nat → List X → List E)
    (heval : ∀ i p, (evalPiece i p).length = p.length) (ev : List E) (hev : ev.length = xs.length)
    (arrivals : List (Nat × List E)) (hperm : arrivals.Perm (jobs evalPiece (pieces xs sizes))) :
    collect (pieceSlices 0 sizes) ev arrivals = ((pieces xs sizes).mapIdx evalPiece).flatten := by
  have hp := partition_of_sum xs sizes hsizes
  have hL : ((pieces xs sizes).mapIdx evalPiece).map List.length = sizes := by
    conv_rhs => rw [← hp.sizes]
    apply List.ext_getElem?
    intro i
    simp only [List.getElem?_map, List.getElem?_mapIdx, Option.map_map]
    congr 1
    funext p
    exact heval i p
  have hpc : pieces ((pieces xs sizes).mapIdx evalPiece).flatten sizes = (pieces xs sizes).mapIdx evalPiece := by
    conv_lhs => rw [← hL]
    rw [hL]
    have := pieces_of_flatten ((pieces xs sizes).mapIdx evalPiece)
    rw [hL] at this
    exact this
  have hlen : ((pieces xs sizes).mapIdx evalPiece).flatten.length = sizes.sum := by
    rw [List.length_flatten, hL]
  have hjobs : jobs (fun _ p => p.map id) ((pieces xs sizes).mapIdx evalPiece) = jobs evalPiece (pieces xs sizes) := by
    apply List.ext_getElem?
    intro i
    simp only [jobs, List.getElem?_map, List.getElem?_zipIdx, List.getElem?_mapIdx, Option.map_map]
    cases (pieces xs sizes)[i]? <;> simp
  have h := C10_parallel_evaluation_schedule_independent ((pieces xs sizes).mapIdx evalPiece).flatten id sizes hlen.symm
    (fun _ p => p.map id) (fun _ _ => rfl) ev (by omega) arrivals (by rw [hpc, hjobs]; exact hperm)
  rw [h, List.map_id]

theorem evaluationSizes_sum (numActors : Nat) (numSub subSize : Option Nat) (n : Nat)
    (ha : 0 < numActors) (hk : numSub ≠ some 0) (hm : subSize ≠ some 0) :
    ∃ sizes, evaluationSizes numActors numSub subSize n = .ok sizes ∧ sizes.sum = n := by
  cases numSub with
  | some k =>
    obtain ⟨s, h1, h2⟩ := sizesByCount_fair n k (Nat.pos_of_ne_zero (by simpa using hk))
    exact ⟨s, h1, h2.sum⟩
  | none =>
    cases subSize with
    | some m =>
      obtain ⟨s, h1, h2⟩ := sizesByMax_spec n m (Nat.pos_of_ne_zero (by simpa using hm))
      exact ⟨s, h1, h2.sum⟩
    | none =>
      obtain ⟨s, h1, h2⟩ := sizesByCount_fair n numActors ha
      exact ⟨s, h1, h2.sum⟩

/-- **C10 (whole call).** `Problem.evaluate` with actors: whatever the number of actors, `num_subbatches` or `subbatch_size`, for every
scheduler (any reordering of the completed jobs), the evaluations stored in the batch are those of sequential evaluation. -/
theorem C10_evaluate_all_eq_sequential {X E : Type} (numActors : Nat) (numSub subSize : Option Nat)
    (ha : 0 < numActors) (hk : numSub ≠ some 0) (hm : subSize ≠ some 0)
    (sched : List (Nat × List E) → List (Nat × List E)) (hsched : ∀ l, (sched l).Perm l)
    (f : X → E) (xs : List X) (ev : List E) (hev : ev.length = xs.length) :
    evaluateAll numActors numSub subSize sched (fun _ p => p.map f) xs ev = .ok (xs.map f) := by
  obtain ⟨s, h1, h2⟩ := evaluationSizes_sum numActors numSub subSize xs.length ha hk hm
  simp only [evaluateAll, h1]
  rw [C10_parallel_evaluation_schedule_independent xs f s h2 _ (fun _ _ => rfl) ev hev _ (hsched _)]

example : evaluateAll 2 none (some 2) List.reverse (fun _ p => p.map (· * 10)) [1, 2, 3, 4, 5] [0, 0, 0, 0, 0]
    = .ok [10, 20, 30, 40, 50] := by decide

/-- Three pieces finishing in the order 2, 0, 1. -/
example : collect (pieceSlices 0 [3, 2, 2]) [0, 0, 0, 0, 0, 0, 0] [(2, [36, 49]), (0, [1, 4, 9]), (1, [16, 25])]
    = [1, 2, 3, 4, 5, 6, 7].map (fun x => x * x) := by decide

example : ([(2, [36, 49]), (0, [1, 4, 9]), (1, [16, 25])] : List (Nat × List Nat)).Perm
    (jobs (fun _ p => p.map fun x => x * x) (pieces [1, 2, 3, 4, 5, 6, 7] [3, 2, 2])) := by decide

/-! ### C68 -/

/-- **C68.** The `4 n` seeds given to `n` actors (`4 n ≤ 2^32`) are pairwise distinct, for every base seed. (That they only
depend on the base seed and the index is the type of the definition.) -/
theorem C68_actor_seeds_distinct (base n : Nat) (hn : 4 * n ≤ 2 ^ 32) :
    (allSeeds base n).flatten.Nodup ∧ (allSeeds base n).flatten.length = 4 * n ∧
    (allSeeds base n).length = n ∧ (∀ s ∈ allSeeds base n, s.length = 4) ∧
    ∀ s ∈ (allSeeds base n).flatten, s < 2 ^ 32 := by
  have hflat : (allSeeds base n).flatten = (List.range (4 * n)).map (actorSeed base) := by
    clear hn
    induction n with
    | zero => simp [allSeeds]
    | succ n ih =>
      have h1 : allSeeds base (n + 1) = allSeeds base n ++ [(List.range 4).map fun k => actorSeed base (4 * n + k)] := by
        simp [allSeeds, List.range_succ]
      rw [h1, List.flatten_append, ih]
      have h2 : 4 * (n + 1) = 4 * n + 4 := by omega
      rw [h2, List.range_add]
      simp [List.map_map, Function.comp_def]
  refine ⟨?_, by rw [hflat]; simp, by simp [allSeeds], ?_, ?_⟩
  · rw [hflat]
    refine List.Nodup.map_on ?_ List.nodup_range
    intro a ha b hb hab
    rw [List.mem_range] at ha hb
    unfold actorSeed at hab
    omega
  · intro s hs
    simp only [allSeeds, List.mem_map] at hs
    obtain ⟨i, _, rfl⟩ := hs
    simp
  · intro s hs
    rw [hflat, List.mem_map] at hs
    obtain ⟨i, _, rfl⟩ := hs
    exact Nat.mod_lt _ (by decide)

/-- Concrete case, with wrap-around. -/
example : allSeeds (2 ^ 32 - 3) 2 = [[2 ^ 32 - 2, 2 ^ 32 - 1, 0, 1], [2, 3, 4, 5]] := by decide

/-! ### C70 -/

/-- **C70 (partial).** `Problem.normalize_obj_index` accepts exactly `-m, …, m-1` and normalises as Python does, `None` being
accepted only for a single objective; `SolutionBatch` row indices likewise; the `SolutionBatch` objective index agrees
except for the value `m`. Missing: the value `m`, where the claim is false (`C70_violated`). -/
theorem C70_obj_index_partial (m : Nat) (i : Option Int) :
    ((problemObjIndex m i).toOption = pyObjIndex m i) ∧
    (i ≠ some (m : Int) → (batchObjIndex m i).toOption = pyObjIndex m i) ∧
    (∀ k : Int, (rowIndex m k).toOption = pyObjIndex m (some k)) := by
  refine ⟨?_, ?_, ?_⟩
  · cases i with
    | none => simp only [problemObjIndex, pyObjIndex]; split <;> rfl
    | some i =>
      simp only [problemObjIndex, pyObjIndex]
      split <;> split <;> first | (split <;> first | rfl | omega) | omega | (rw [if_pos (by omega)]; rfl) | skip
      all_goals first | (rw [if_neg (by omega), if_neg (by omega)]; rfl) | (rw [if_neg (by omega), if_pos (by omega)]; rfl) | skip
  · intro hne
    cases i with
    | none => simp only [batchObjIndex, pyObjIndex]; by_cases h : m = 1 <;> simp [h, Except.toOption]
    | some i =>
      have hne : i ≠ m := by simpa using hne
      simp only [batchObjIndex, pyObjIndex]
      split <;> split <;> first | (split <;> first | rfl | omega) | omega | (rw [if_pos (by omega)]; rfl) | skip
      all_goals first | (rw [if_neg (by omega), if_neg (by omega)]; rfl) | (rw [if_neg (by omega), if_pos (by omega)]; rfl) | skip
  · intro k
    simp only [rowIndex, pyObjIndex]
    split <;> split <;> first | (split <;> first | rfl | omega) | omega | (rw [if_pos (by omega)]; rfl) | skip
    all_goals first | (rw [if_neg (by omega), if_neg (by omega)]; rfl) | (rw [if_neg (by omega), if_pos (by omega)]; rfl) | skip

example : problemObjIndex 2 (some (-1)) = .ok 1 ∧ problemObjIndex 2 (some 2) = .error .indexError := ⟨rfl, rfl⟩

/-- **C70 (partial).** Refusals: an index out of range is an IndexError, a missing index with several objectives a ValueError. -/
theorem C70_refused_partial (m : Nat) :
    (m ≠ 1 → problemObjIndex m none = .error .valueError ∧ batchObjIndex m none = .error .valueError) ∧
    (∀ k : Int, pyObjIndex m (some k) = none → problemObjIndex m (some k) = .error .indexError ∧ rowIndex m k = .error .indexError ∧ (k ≠ m → batchObjIndex m (some k) = .error .indexError)) := by
  refine ⟨fun h => ⟨by simp [problemObjIndex, h], by simp [batchObjIndex, h]⟩, fun k hk => ?_⟩
  have h : k < -(m : Int) ∨ (m : Int) ≤ k := by
    unfold pyObjIndex at hk
    by_contra hc
    push Not at hc
    simp only at hk
    split at hk
    · cases hk
    · split at hk
      · cases hk
      · omega
  refine ⟨?_, ?_, fun hne => ?_⟩
  · simp only [problemObjIndex]; split <;> rw [if_pos (by omega)]
  · simp only [rowIndex]; split <;> rw [if_pos (by omega)]
  · simp only [batchObjIndex]; split <;> rw [if_pos (by omega)]

example : pyObjIndex 2 (some 2) = none ∧ pyObjIndex 2 (some (-3)) = none := by decide

/-- **C70 is false of the code**: `SolutionBatch` accepts the objective index `m` for every number `m` of objectives; when the batch
has extra evaluation data, `access_evals(m)` returns a column of that data as if it were an objective. -/
theorem C70_violated (m : Nat) :
    batchObjIndex m (some m) = .ok m ∧
    ∀ {E : Type} (row extra : List E) (x : E), row.length = m → accessEvalsColumn m (row ++ x :: extra) m = .ok x := by
  have h : batchObjIndex m (some m) = .ok (m : Int) := by
    simp only [batchObjIndex]
    rw [if_neg (by omega), if_neg (by omega)]
  refine ⟨h, fun row extra x hr => ?_⟩
  simp only [accessEvalsColumn, h, Int.toNat_natCast]
  rw [List.getElem?_append_right (by omega)]
  simp [hr]

end EvoTorch.Workload
