import Verif.Model.BatchHistory
import Verif.Props.BatchHistory
/-!
C95: which batches share memory. Slices (and solutions) are views of their source for ever; batches made by index lists, by concatenation and anew are independent of all
others for ever.
-/
namespace EvoTorch.BatchHistory
variable {V E : Type}

/-! ### Specification -/

/-- What a user sees of batch number `b`: the decision values and the evaluations of its rows. -/
def contents (st : State V E) (b : Nat) : Option (List (Cell V E)) := (st.objs[b]?).map fun rows => rows.map st.heap

/-- The batch which an operation modifies, if any. -/
def target : Op V E → Option Nat
  | .setValues b _ _ _ => some b
  | .modifyValues b _ _ _ => some b
  | .setEvals b _ _ => some b
  | .forget b _ => some b
  | .evaluate b => some b
  | _ => none

/-- The origin of each batch: a slice has the origin of its source, every other batch is its own origin. `origins` lists the origins of the existing batches; the new list,
after an operation which has created a batch (`created`), has one more entry. -/
def nextOrigins (origins : List Nat) (created : Bool) (op : Op V E) : List Nat :=
  if created then origins ++ [match op with | .slice b _ _ _ => origins.getD b 0 | _ => origins.length] else origins

/-- Whether the operation creates a batch. -/
def creates (f : V → List (Option E)) (m : Nat) (st : State V E) (op : Op V E) : Bool :=
  decide ((exec f m st op).state.objs.length = st.objs.length + 1)

/-- The origins after a history. -/
def originsAfter (f : V → List (Option E)) (m : Nat) (st : State V E) (origins : List Nat) : List (Op V E) → List Nat
  | [] => origins
  | op :: rest => originsAfter f m (exec f m st op).state (nextOrigins origins (creates f m st op) op) rest

/-- No operation of the history modifies a batch with the origin `r`. -/
def LeavesAlone (f : V → List (Option E)) (m : Nat) (r : Nat) (st : State V E) (origins : List Nat) : List (Op V E) → Prop
  | [] => True
  | op :: rest => (∀ b, target op = some b → origins[b]? ≠ some r) ∧
      LeavesAlone f m r (exec f m st op).state (nextOrigins origins (creates f m st op) op) rest

/-! ### Frame lemmas -/

theorem writeEvals_other (l : List (Nat × List (Option E))) : ∀ (h : Nat → Cell V E) (a : Nat), (∀ p ∈ l, p.1 ≠ a) → writeEvals h l a = h a := by
  induction l with
  | nil => intro h a _; rfl
  | cons p l ih =>
    intro h a ha
    obtain ⟨b, r⟩ := p
    rw [writeEvals, ih _ _ fun p hp => ha p (List.mem_cons_of_mem _ hp)]
    have : b ≠ a := ha (b, r) List.mem_cons_self
    simp [this.symm]

theorem clearEvals_other (m : Nat) (h : Nat → Cell V E) (as : List Nat) (a : Nat) (ha : a ∉ as) : clearEvals m h as a = h a := by
  simp [clearEvals, ha]

theorem alloc_old (st : State V E) (cells : List (Cell V E)) (x : Nat) (hx : x < st.next) : (alloc st cells).heap x = st.heap x := by
  simp only [alloc]
  rw [dif_neg]
  omega

theorem addrs_some {st : State V E} {b : Nat} {pos as : List Nat} (h : addrs st b pos = some as) : ∃ rows, st.objs[b]? = some rows := by
  cases hr : st.objs[b]? with
  | none => simp [addrs, hr] at h
  | some rows => exact ⟨rows, rfl⟩

/-- An operation changes neither old memory outside of its target, nor the existing batches; it may append a batch. -/
theorem exec_frame (f : V → List (Option E)) (m : Nat) (st : State V E) (op : Op V E) (x : Nat) (hx : x < st.next)
    (ht : ∀ b rows, target op = some b → st.objs[b]? = some rows → x ∉ rows) : (exec f m st op).state.heap x = st.heap x := by
  cases op with
  | new vals => exact alloc_old _ _ _ hx
  | slice b lo hi step =>
    simp only [exec]
    split
    · rfl
    · split <;> rfl
  | take b idx => simp only [exec]; split; · rfl
                  · exact alloc_old _ _ _ hx
  | cat bs => simp only [exec]; split; · rfl
              · exact alloc_old _ _ _ hx
  | setValues b pos vals isObject =>
    simp only [exec]
    split
    · rfl
    · rename_i as has
      obtain ⟨rows, hr⟩ := addrs_some has
      have hna : x ∉ as := fun hxa => ht b rows rfl hr (addrs_sub has hr x hxa)
      split
      · rfl
      · split
        · split
          · dsimp only; rw [clearEvals_other _ _ _ _ hna]; exact writeObjs_other _ _ _ (zip_fst_mem hna)
          · exact writeObjs_other _ _ _ (zip_fst_mem hna)
        · split
          · rfl
          · dsimp only; rw [clearEvals_other _ _ _ _ hna]; exact writeVals_other _ _ _ (zip_fst_mem hna)
  | modifyValues b pos vals keep =>
    simp only [exec]
    split
    · rename_i rows as hr has
      have hnr : x ∉ rows := ht b rows rfl hr
      have hna : x ∉ as := fun hxa => hnr (addrs_sub has hr x hxa)
      dsimp only
      rw [writeVals_other _ _ _ (zip_fst_mem hna)]
      split
      · rfl
      · exact clearEvals_other _ _ _ _ hnr
    · rfl
  | setEvals b pos rows' =>
    simp only [exec]
    split
    · rfl
    · rename_i as has
      obtain ⟨rows, hr⟩ := addrs_some has
      have hna : x ∉ as := fun hxa => ht b rows rfl hr (addrs_sub has hr x hxa)
      exact writeEvals_other _ _ _ (zip_fst_mem hna)
  | forget b pos =>
    simp only [exec]
    split
    · rfl
    · rename_i as has
      obtain ⟨rows, hr⟩ := addrs_some has
      have hna : x ∉ as := fun hxa => ht b rows rfl hr (addrs_sub has hr x hxa)
      exact clearEvals_other _ _ _ _ hna
  | evaluate b =>
    simp only [exec]
    split
    · rfl
    · rename_i rows hr
      have hnr : x ∉ rows := ht b rows rfl hr
      refine writeEvals_other _ _ _ ?_
      intro p hp
      simp only [List.mem_map] at hp
      obtain ⟨a, ha, rfl⟩ := hp
      exact fun h => hnr (h ▸ ha)

/-- What an operation does to the list of batches. -/
theorem exec_objs (f : V → List (Option E)) (m : Nat) (st : State V E) (op : Op V E) :
    ((exec f m st op).state.objs = st.objs ∧ (exec f m st op).state.next = st.next) ∨
    (∃ b lo hi step rows, op = .slice b lo hi step ∧ st.objs[b]? = some rows ∧ (exec f m st op).state.objs = st.objs ++ [cut lo hi step rows] ∧
      (exec f m st op).state.next = st.next) ∨
    (∃ cells, (∀ b lo hi step, op ≠ .slice b lo hi step) ∧ (exec f m st op).state = alloc st cells) := by
  cases op with
  | new vals => exact Or.inr (Or.inr ⟨_, by simp, rfl⟩)
  | slice b lo hi step =>
    simp only [exec]
    cases hr : st.objs[b]? with
    | none => exact Or.inl ⟨rfl, rfl⟩
    | some rows =>
      dsimp only
      split
      · exact Or.inl ⟨rfl, rfl⟩
      · exact Or.inr (Or.inl ⟨b, lo, hi, step, rows, rfl, hr, rfl, rfl⟩)
  | take b idx =>
    simp only [exec]
    cases addrs st b idx with
    | none => exact Or.inl ⟨rfl, rfl⟩
    | some as => exact Or.inr (Or.inr ⟨_, by simp, rfl⟩)
  | cat bs =>
    simp only [exec]
    cases bs.mapM fun b => st.objs[b]? with
    | none => exact Or.inl ⟨rfl, rfl⟩
    | some rows => exact Or.inr (Or.inr ⟨_, by simp, rfl⟩)
  | setValues b pos vals isObject => left; simp only [exec]; (repeat' split) <;> exact ⟨rfl, rfl⟩
  | modifyValues b pos vals keep => left; simp only [exec]; (repeat' split) <;> exact ⟨rfl, rfl⟩
  | setEvals b pos rows => left; simp only [exec]; (repeat' split) <;> exact ⟨rfl, rfl⟩
  | forget b pos => left; simp only [exec]; (repeat' split) <;> exact ⟨rfl, rfl⟩
  | evaluate b => left; simp only [exec]; (repeat' split) <;> exact ⟨rfl, rfl⟩

/-- Existing batches keep their rows. -/
theorem exec_objs_old (f : V → List (Option E)) (m : Nat) (st : State V E) (op : Op V E) (b : Nat) (rows : List Nat) (h : st.objs[b]? = some rows) :
    (exec f m st op).state.objs[b]? = some rows := by
  have hb : b < st.objs.length := (List.getElem?_eq_some_iff.1 h).1
  rcases exec_objs f m st op with ⟨h1, _⟩ | ⟨_, _, _, _, _, _, _, h1, _⟩ | ⟨cells, _, h1⟩
  · rw [h1, h]
  · rw [h1, List.getElem?_append_left hb, h]
  · rw [h1]; simp only [alloc]; rw [List.getElem?_append_left hb, h]

theorem run_objs_old (f : V → List (Option E)) (m : Nat) (ops : List (Op V E)) : ∀ (st : State V E) (b : Nat) (rows : List Nat), st.objs[b]? = some rows →
    (run f m st ops).objs[b]? = some rows := by
  induction ops with
  | nil => intro st b rows h; exact h
  | cons op ops ih => intro st b rows h; exact ih _ _ _ (exec_objs_old f m st op b rows h)

/-! ### The invariant: batches with different origins have no row in common -/

/-- Addresses in use are allocated, and batches of different origins are disjoint. -/
structure Separated (st : State V E) (origins : List Nat) : Prop where
  len : origins.length = st.objs.length
  own : ∀ r ∈ origins, r < origins.length
  alloc : ∀ (b : Nat) rows, st.objs[b]? = some rows → ∀ a ∈ rows, a < st.next
  disjoint : ∀ (i j ri rj : Nat) rows rows', origins[i]? = some ri → origins[j]? = some rj → ri ≠ rj → st.objs[i]? = some rows → st.objs[j]? = some rows' →
    ∀ a ∈ rows, a ∉ rows'

theorem getElem?_snoc {α : Type} (l : List α) (x y : α) (i : Nat) (h : (l ++ [x])[i]? = some y) : l[i]? = some y ∨ i = l.length ∧ y = x := by
  by_cases hi : i < l.length
  · left; rwa [List.getElem?_append_left hi] at h
  · right
    rw [List.getElem?_append_right (by omega)] at h
    have : i - l.length = 0 := by
      by_cases h0 : i - l.length = 0
      · exact h0
      · rw [List.getElem?_eq_none (by simp; omega)] at h; cases h
    rw [this] at h
    simp at h
    exact ⟨by omega, h.symm⟩

theorem separated_exec (f : V → List (Option E)) (m : Nat) (st : State V E) (origins : List Nat) (op : Op V E) (hs : Separated st origins) :
    Separated (exec f m st op).state (nextOrigins origins (creates f m st op) op) := by
  rcases exec_objs f m st op with ⟨h1, h2⟩ | ⟨b, lo, hi, step, rows, rfl, hr, h1, h2⟩ | ⟨cells, hne, h1⟩
  · have hc : creates f m st op = false := by simp [creates, h1]
    rw [hc]
    have : nextOrigins origins false op = origins := rfl
    rw [this]
    exact ⟨by rw [h1]; exact hs.len, hs.own, by rw [h1, h2]; exact hs.alloc, by rw [h1]; exact hs.disjoint⟩
  · have hc : creates f m st (.slice b lo hi step) = true := by simp [creates, h1]
    have hb : b < st.objs.length := (List.getElem?_eq_some_iff.1 hr).1
    have hbo : b < origins.length := by rw [hs.len]; exact hb
    rw [hc]
    have hno : nextOrigins origins true (Op.slice b lo hi step : Op V E) = origins ++ [origins[b]] := by
      simp [nextOrigins, List.getD_eq_getElem?_getD, List.getElem?_eq_getElem hbo]
    rw [hno]
    have hsub : ∀ a ∈ cut lo hi step rows, a ∈ rows := fun a ha => by
      obtain ⟨i, _, hi⟩ := List.mem_filterMap.1 ha
      exact List.mem_of_mem_take (List.mem_of_mem_drop (List.mem_of_getElem? hi))
    have hob : origins[b]? = some origins[b] := List.getElem?_eq_getElem hbo
    refine ⟨by simp [h1, hs.len], fun r hr' => ?_, fun c rows' hc' a ha => ?_, fun i j ri rj rows1 rows2 hi' hj hne h3 h4 a ha => ?_⟩
    · simp only [List.mem_append, List.mem_singleton, List.length_append, List.length_singleton] at hr' ⊢
      rcases hr' with hr' | rfl
      · have := hs.own r hr'; omega
      · have := hs.own _ (List.getElem_mem hbo); omega
    · rw [h2]
      rw [h1] at hc'
      rcases getElem?_snoc _ _ _ _ hc' with h | ⟨_, rfl⟩
      · exact hs.alloc c rows' h a ha
      · exact hs.alloc b rows hr a (hsub a ha)
    · rw [h1] at h3 h4
      rcases getElem?_snoc _ _ _ _ h3 with h3 | ⟨rfl, rfl⟩ <;> rcases getElem?_snoc _ _ _ _ h4 with h4 | ⟨rfl, rfl⟩
      · have hi2 : i < st.objs.length := (List.getElem?_eq_some_iff.1 h3).1
        have hj2 : j < st.objs.length := (List.getElem?_eq_some_iff.1 h4).1
        rw [List.getElem?_append_left (by rw [hs.len]; exact hi2)] at hi'
        rw [List.getElem?_append_left (by rw [hs.len]; exact hj2)] at hj
        exact hs.disjoint i j ri rj rows1 rows2 hi' hj hne h3 h4 a ha
      · have hi2 : i < st.objs.length := (List.getElem?_eq_some_iff.1 h3).1
        rw [List.getElem?_append_left (by rw [hs.len]; exact hi2)] at hi'
        rw [← hs.len, List.getElem?_append_right (by omega)] at hj
        simp at hj
        intro ha2
        exact hs.disjoint i b ri rj rows1 rows hi' (by rw [hob, hj]) hne h3 hr a ha (hsub a ha2)
      · have hj2 : j < st.objs.length := (List.getElem?_eq_some_iff.1 h4).1
        rw [List.getElem?_append_left (by rw [hs.len]; exact hj2)] at hj
        rw [← hs.len, List.getElem?_append_right (by omega)] at hi'
        simp at hi'
        exact hs.disjoint b j ri rj rows rows2 (by rw [hob, hi']) hj hne hr h4 a (hsub a ha)
      · rw [hi'] at hj; cases hj; exact absurd rfl hne
  · have hc : creates f m st op = true := by simp [creates, h1, EvoTorch.BatchHistory.alloc]
    rw [hc]
    have hno : nextOrigins origins true op = origins ++ [origins.length] := by
      cases op <;> first | rfl | exact absurd rfl (hne _ _ _ _)
    rw [hno]
    have hobjs : (exec f m st op).state.objs = st.objs ++ [(List.range cells.length).map (st.next + ·)] := by rw [h1]; rfl
    have hnext : (exec f m st op).state.next = st.next + cells.length := by rw [h1]; rfl
    have hnew : ∀ a ∈ (List.range cells.length).map (st.next + ·), st.next ≤ a ∧ a < st.next + cells.length := by
      intro a ha
      simp only [List.mem_map, List.mem_range] at ha
      obtain ⟨k, hk, rfl⟩ := ha
      omega
    refine ⟨by simp [hobjs, hs.len], fun r hr' => ?_, fun c rows' hc' a ha => ?_, fun i j ri rj rows1 rows2 hi' hj hne' h3 h4 a ha => ?_⟩
    · simp only [List.mem_append, List.mem_singleton, List.length_append, List.length_singleton] at hr' ⊢
      rcases hr' with hr' | rfl
      · have := hs.own r hr'; omega
      · omega
    · rw [hnext]
      rw [hobjs] at hc'
      rcases getElem?_snoc _ _ _ _ hc' with h | ⟨_, rfl⟩
      · have := hs.alloc c rows' h a ha; omega
      · exact (hnew a ha).2
    · rw [hobjs] at h3 h4
      rcases getElem?_snoc _ _ _ _ h3 with h3 | ⟨rfl, rfl⟩ <;> rcases getElem?_snoc _ _ _ _ h4 with h4 | ⟨rfl, rfl⟩
      · have hi2 : i < st.objs.length := (List.getElem?_eq_some_iff.1 h3).1
        have hj2 : j < st.objs.length := (List.getElem?_eq_some_iff.1 h4).1
        rw [List.getElem?_append_left (by rw [hs.len]; exact hi2)] at hi'
        rw [List.getElem?_append_left (by rw [hs.len]; exact hj2)] at hj
        exact hs.disjoint i j ri rj rows1 rows2 hi' hj hne' h3 h4 a ha
      · intro ha2
        have := hs.alloc i rows1 h3 a ha
        have := (hnew a ha2).1
        omega
      · intro ha2
        have := hs.alloc j rows2 h4 a ha2
        have := (hnew a ha).1
        omega
      · rw [hi'] at hj; cases hj; exact absurd rfl hne'

theorem separated_run (f : V → List (Option E)) (m : Nat) (ops : List (Op V E)) : ∀ (st : State V E) (origins : List Nat), Separated st origins →
    Separated (run f m st ops) (originsAfter f m st origins ops) := by
  induction ops with
  | nil => intro st o h; exact h
  | cons op ops ih => intro st o h; exact ih _ _ (separated_exec f m st o op h)

theorem separated_empty (m : Nat) (v : V) : Separated (empty m v : State V E) [] :=
  ⟨rfl, by simp, by simp [empty], by simp⟩

theorem contents_exec (f : V → List (Option E)) (m : Nat) (st : State V E) (origins : List Nat) (hs : Separated st origins) (op : Op V E) (b r : Nat)
    (hb : origins[b]? = some r) (ht : ∀ c, target op = some c → origins[c]? ≠ some r) : contents (exec f m st op).state b = contents st b := by
  have hlt : b < st.objs.length := by rw [← hs.len]; exact (List.getElem?_eq_some_iff.1 hb).1
  have hrows : st.objs[b]? = some st.objs[b] := List.getElem?_eq_getElem hlt
  simp only [contents, exec_objs_old f m st op b _ hrows, hrows, Option.map_some, Option.some.injEq]
  refine List.map_congr_left fun a ha => ?_
  refine exec_frame f m st op a (hs.alloc b _ hrows a ha) fun c rows hc hcr => ?_
  have hcl : c < origins.length := by rw [hs.len]; exact (List.getElem?_eq_some_iff.1 hcr).1
  have hco : origins[c]? = some origins[c] := List.getElem?_eq_getElem hcl
  refine hs.disjoint b c r _ _ rows hb hco ?_ hrows hcr a ha
  rintro rfl
  exact ht c hc hco

theorem nextOrigins_old (origins : List Nat) (cr : Bool) (op : Op V E) (b r : Nat) (hb : origins[b]? = some r) : (nextOrigins origins cr op)[b]? = some r := by
  unfold nextOrigins
  split
  · rw [List.getElem?_append_left (List.getElem?_eq_some_iff.1 hb).1]; exact hb
  · exact hb

/-- **C95 (independence).** After any history, take any batch. As long as no batch of the same origin (its source, if it is a slice, and the other slices of that) is
modified, its decision values and evaluations stay what they are, whatever else happens: batches made by `take`, by index lists or by concatenation neither change their
source when modified, nor change when their source is modified. -/
theorem C95_independent (f : V → List (Option E)) (m : Nat) (v0 : V) (before after : List (Op V E)) (b r : Nat)
    (hb : (originsAfter f m (empty m v0) [] before)[b]? = some r)
    (hleave : LeavesAlone f m r (run f m (empty m v0) before) (originsAfter f m (empty m v0) [] before) after) :
    contents (run f m (run f m (empty m v0) before) after) b = contents (run f m (empty m v0) before) b := by
  have hs := separated_run f m before (empty m v0) [] (separated_empty m v0)
  revert hb hleave hs
  generalize run f m (empty m v0) before = st
  generalize originsAfter f m (empty m v0) [] before = origins
  induction after generalizing st origins with
  | nil => intros; rfl
  | cons op rest ih =>
    intro hb hl hs
    rw [run, ih _ _ (nextOrigins_old _ _ _ _ _ hb) hl.2 (separated_exec f m st origins op hs)]
    exact contents_exec f m st origins hs op b r hb hl.1

theorem filterMap_range_get {α : Type} (g : Nat → Option α) : ∀ (n : Nat), (∀ i j, i ≤ j → g j ≠ none → g i ≠ none) → g n = none → ∀ i : Nat, ((List.range n).filterMap g)[i]? = g i := by
  intro n
  induction n with
  | zero =>
    intro hmono h0 i
    cases hg : g i with
    | none => rfl
    | some x => exact absurd h0 (hmono 0 i (Nat.zero_le _) (by simp [hg]))
  | succ n ih =>
    intro hmono hn i
    rw [List.range_succ, List.filterMap_append]
    cases hg : g n with
    | none =>
      rw [List.filterMap_cons_none hg, List.filterMap_nil, List.append_nil]
      exact ih hmono hg i
    | some x =>
      rw [List.filterMap_cons_some hg, List.filterMap_nil]
      have hall : ∀ k : Nat, k ≤ n → ∃ l : List α, (List.range k).filterMap g = l ∧ l.length = k ∧ ∀ i, i < k → l[i]? = g i := by
        intro k
        induction k with
        | zero => intro _; exact ⟨[], rfl, rfl, fun i hi => absurd hi (Nat.not_lt_zero _)⟩
        | succ k ihk =>
          intro hk
          obtain ⟨l, hl, hlen, hget⟩ := ihk (by omega)
          cases hgk : g k with
          | none => exact absurd hgk (hmono k n (by omega) (by simp [hg]))
          | some y =>
            refine ⟨l ++ [y], by rw [List.range_succ, List.filterMap_append, hl, List.filterMap_cons_some hgk, List.filterMap_nil], by simp [hlen], fun i hi => ?_⟩
            rcases Nat.lt_or_ge i k with h | h
            · rw [List.getElem?_append_left (by omega)]; exact hget i h
            · have : i = k := by omega
              subst this
              rw [List.getElem?_append_right (by omega), hlen, hgk]; simp
      obtain ⟨l, hl, hlen, hget⟩ := hall n (Nat.le_refl _)
      rw [hl]
      rcases Nat.lt_or_ge i n with h | h
      · rw [List.getElem?_append_left (by omega)]; exact hget i h
      · rw [List.getElem?_append_right (by omega), hlen]
        rcases Nat.eq_or_lt_of_le h with h' | h'
        · subst h'; simp [hg]
        · rw [List.getElem?_eq_none (by simp; omega)]
          cases hgi : g i with
          | none => rfl
          | some y => exact absurd hn (hmono (n + 1) i (by omega) (by simp [hgi]))

/-- What Python's slicing gives: item `i` of the slice is item `lo + i * step`, as long as that is before `hi`. -/
theorem cut_get {α : Type} (lo hi step : Nat) (hs : step ≠ 0) (rows : List α) (i : Nat) : (cut lo hi step rows)[i]? = if lo + i * step < hi then rows[lo + i * step]? else none := by
  have hg : ∀ i : Nat, ((rows.take hi).drop lo)[i * step]? = if lo + i * step < hi then rows[lo + i * step]? else none := by
    intro i
    rw [List.getElem?_drop, List.getElem?_take]
  unfold cut
  rw [filterMap_range_get _ _ ?_ ?_ i, hg]
  · intro a b hab hb hc
    refine hb ?_
    rw [List.getElem?_eq_none_iff] at hc ⊢
    exact Nat.le_trans hc (Nat.mul_le_mul_right step hab)
  · rw [List.getElem?_eq_none_iff]
    have h1 : rows.length * 1 ≤ rows.length * step := Nat.mul_le_mul_left _ (by omega)
    simp
    omega

/-- **C95 (views).** Take a slice of any batch in any state. Then, after every further history (including modifications of the slice, of its source and of any other
batch), the slice shows exactly the rows `lo`, `lo + step`, ... before `hi` of its source: it shares its memory. -/
theorem C95_views_share (f : V → List (Option E)) (m : Nat) (st : State V E) (b lo hi step : Nat) (hstep : 0 < step) (hb : b < st.objs.length) (ops : List (Op V E)) :
    ∃ src view, contents (run f m (exec f m st (.slice b lo hi step)).state ops) b = some src ∧
      contents (run f m (exec f m st (.slice b lo hi step)).state ops) st.objs.length = some view ∧
      ∀ i : Nat, view[i]? = if lo + i * step < hi then src[lo + i * step]? else none := by
  have hs : step ≠ 0 := by omega
  have hrows : st.objs[b]? = some st.objs[b] := List.getElem?_eq_getElem hb
  have h1 : (exec f m st (.slice b lo hi step)).state.objs = st.objs ++ [cut lo hi step (st.objs[b])] := by simp [exec, hrows, hs]
  have hb' : (exec f m st (.slice b lo hi step)).state.objs[b]? = some st.objs[b] := by rw [h1, List.getElem?_append_left hb, hrows]
  have hn' : (exec f m st (.slice b lo hi step)).state.objs[st.objs.length]? = some (cut lo hi step (st.objs[b])) := by
    rw [h1, List.getElem?_append_right (Nat.le_refl _)]; simp
  refine ⟨_, _, by simp only [contents, run_objs_old f m ops _ _ _ hb', Option.map_some]; rfl, by simp only [contents, run_objs_old f m ops _ _ _ hn', Option.map_some]; rfl, fun i => ?_⟩
  rw [List.getElem?_map, cut_get lo hi step hs]
  split
  · rw [List.getElem?_map]
  · rfl

theorem alloc_contents (st : State V E) (cells : List (Cell V E)) : contents (alloc st cells) st.objs.length = some cells := by
  simp only [contents, alloc, List.getElem?_append_right (Nat.le_refl _), Nat.sub_self, List.getElem?_cons_zero, Option.map_some, Option.some.injEq, List.map_map]
  refine List.ext_getElem (by simp) fun i h1 h2 => ?_
  simp [h2]

theorem mapM_map {α β γ : Type} (g : α → Option β) (h : β → γ) : ∀ (l : List α) (r : List β), l.mapM g = some r → l.mapM (fun x => (g x).map h) = some (r.map h) := by
  intro l
  induction l with
  | nil => intro r hr; simp at hr; subst hr; rfl
  | cons x l ih =>
    intro r hr
    simp only [List.mapM_cons, Option.bind_eq_bind, Option.pure_def, Option.bind_eq_some_iff, Option.some.injEq] at hr
    obtain ⟨y, hy, ys, hys, rfl⟩ := hr
    simp [List.mapM_cons, hy, ih ys hys]

/-- **C95 (what is copied).** `take` gives the chosen rows, in the order of the indices (an index may be repeated), as they are at that moment; concatenation gives the rows
of the batches one after the other. -/
theorem C95_copies (f : V → List (Option E)) (m : Nat) (st : State V E) :
    (∀ b idx src sel, contents st b = some src → idx.mapM (fun (i : Nat) => src[i]?) = some sel → contents (exec f m st (.take b idx)).state st.objs.length = some sel) ∧
    (∀ bs parts, bs.mapM (contents st) = some parts → contents (exec f m st (.cat bs)).state st.objs.length = some parts.flatten) := by
  constructor
  · intro b idx src sel hsrc hsel
    simp only [contents, Option.map_eq_some_iff] at hsrc
    obtain ⟨rows, hrows, rfl⟩ := hsrc
    have key : ∀ (idx : List Nat) sel, idx.mapM (fun (i : Nat) => (rows.map st.heap)[i]?) = some sel → ∃ as, idx.mapM (fun (i : Nat) => rows[i]?) = some as ∧ as.map st.heap = sel := by
      intro idx
      induction idx with
      | nil => intro sel h; simp at h; subst h; exact ⟨[], rfl, rfl⟩
      | cons i idx ih =>
        intro sel h
        simp only [List.mapM_cons, Option.bind_eq_bind, Option.pure_def, Option.bind_eq_some_iff, Option.some.injEq, List.getElem?_map, Option.map_eq_some_iff] at h
        obtain ⟨y, ⟨a, ha, rfl⟩, ys, hys, rfl⟩ := h
        obtain ⟨as, h1, h2⟩ := ih ys (by simpa only [List.getElem?_map] using hys)
        exact ⟨a :: as, by simp [List.mapM_cons, ha, h1], by simp [h2]⟩
    obtain ⟨as, h1, h2⟩ := key idx sel hsel
    have : addrs st b idx = some as := by simp only [addrs, hrows, Option.bind_some]; exact h1
    simp only [exec, this]
    rw [alloc_contents, h2]
  · intro bs parts hp
    have key : ∀ (bs : List Nat) (parts : List (List (Cell V E))), bs.mapM (contents st) = some parts → ∃ rows, bs.mapM (fun (b : Nat) => st.objs[b]?) = some rows ∧ (rows.flatten.map st.heap) = parts.flatten := by
      intro bs
      induction bs with
      | nil => intro parts h; simp at h; subst h; exact ⟨[], rfl, rfl⟩
      | cons b bs ih =>
        intro parts h
        simp only [List.mapM_cons, Option.bind_eq_bind, Option.pure_def, Option.bind_eq_some_iff, Option.some.injEq, contents, Option.map_eq_some_iff] at h
        obtain ⟨y, ⟨a, ha, rfl⟩, ys, hys, rfl⟩ := h
        obtain ⟨rows, h1, h2⟩ := ih ys hys
        exact ⟨a :: rows, by simp [List.mapM_cons, ha, h1], by simp [h2]⟩
    obtain ⟨rows, h1, h2⟩ := key bs parts hp
    simp only [exec, h1]
    rw [alloc_contents, h2]

/-! ### Non-vacuity -/

/-- A batch of three, a slice of it, a copy of two of its rows; then the original is modified. -/
def sharingExample : List (Op Nat Nat) := [.new [10, 20, 30], .slice 0 1 3 1, .take 0 [2, 0]]

example : originsAfter (fun v => [some v]) 1 (empty 1 0) [] sharingExample = [0, 0, 2] := by decide

example : contents (run (fun v => [some v]) 1 (run (fun v => [some v]) 1 (empty 1 0) sharingExample) [.setValues 0 [0, 2] [some 5, some 6] false]) 2 =
    contents (run (fun v => [some v]) 1 (empty 1 0) sharingExample) 2 :=
  C95_independent _ 1 0 sharingExample [.setValues 0 [0, 2] [some 5, some 6] false] 2 2 (by decide)
    ⟨by intro b h; cases h; decide, trivial⟩

example : (contents (run (fun v => [some v]) 1 (run (fun v => [some v]) 1 (empty 1 0) sharingExample) [.setValues 1 [0] [some 7] false]) 0).map (·.map Cell.val) = some [10, 7, 30] := by decide

end EvoTorch.BatchHistory
