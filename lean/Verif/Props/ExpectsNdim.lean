import Verif.Model.ExpectsNdim
import Mathlib.Data.List.Basic
import Mathlib.Data.List.Forall2
import Mathlib.Data.List.Infix
/-! Property C60: `expects_ndim` applies the function to each item of the right-aligned batch. -/
namespace EvoTorch.ExpectsNdim
open EvoTorch
variable {K O R : Type}

/-! ### Specification -/

/-- The number of batch dimensions of an argument: how many dimensions it has beyond the declared ones. An argument declared as None has none. -/
def batchRank : Option ℕ → Arg K O → ℕ
  | some d, .tensor t => t.shape.length - d
  | _, _ => 0

/-- The batch dimensions: the leftmost ones. -/
def batchShape : Option ℕ → Arg K O → List ℕ
  | some d, .tensor t => t.shape.take (t.shape.length - d)
  | _, _ => []

/-- What the function gets for this argument at batch position `idx`: the batch dimensions of the argument are aligned to the right end of `idx`. -/
def item : Option ℕ → List ℕ → Arg K O → Arg K O
  | some d, idx, .tensor t =>
    let r := t.shape.length - d
    .tensor { t with shape := t.shape.drop r, val := fun core => t.val (idx.drop (idx.length - r) ++ core) }
  | _, _, a => a

/-- `B` is the common batch shape: the batch shape of each argument is a right end of it, and at least one argument has all of it. -/
def CommonBatch (slots : List (Option ℕ × Arg K O)) (B : List ℕ) : Prop :=
  (∀ p ∈ slots, batchShape p.1 p.2 <:+ B) ∧ (B = [] ∨ ∃ p ∈ slots, batchShape p.1 p.2 = B)

/-- `idx` is a position in `B`. -/
def Position (idx B : List ℕ) : Prop := List.Forall₂ (· < ·) idx B

/-- The result at a position. -/
def Tree.get : List ℕ → Tree R → Option R
  | [], .leaf r => some r
  | i :: is, .node ts => ts[i]?.bind (Tree.get is)
  | _, _ => none

/-- The stacked results have the shape `B`. -/
def HasShape : List ℕ → Tree R → Prop
  | [], .leaf _ => True
  | n :: B, .node ts => ts.length = n ∧ ∀ t ∈ ts, HasShape B t
  | _, _ => False

/-! ### Proofs -/

/-- The item of an argument with `q` batch dimensions. -/
def itemR (q : ℕ) (idx : List ℕ) : Arg K O → Arg K O
  | .tensor t => .tensor { t with shape := t.shape.drop q, val := fun core => t.val (idx.drop (idx.length - q) ++ core) }
  | a => a

/-- An argument with `q` batch dimensions, which are a right end of `B`. -/
def Fits (B : List ℕ) (q : ℕ) (a : Arg K O) : Prop :=
  q = 0 ∨ ∃ t, a = .tensor t ∧ t.shape.take q <:+ B ∧ q ≤ t.shape.length

/-- The function wrapped `j` times, for arguments with `rs` batch dimensions. -/
def build (fn : List (Arg K O) → R) (rs : List ℕ) : ℕ → List (Arg K O) → Except PyErr (Tree R)
  | 0 => fun as => .ok (.leaf (fn as))
  | j + 1 => vmap (build fn rs j) (rs.map fun r => decide (j < r))

theorem collect_ok (f : ℕ → Except PyErr R) (g : ℕ → R) (l : List ℕ) (h : ∀ b ∈ l, f b = .ok (g b)) : collect (l.map f) = .ok (l.map g) := by
  induction l with
  | nil => rfl
  | cons b bs ih =>
    simp only [List.map_cons, collect, h b (by simp), Except.bind, ih fun c hc => h c (by simp [hc])]

theorem collect_mem (l : List (Except PyErr R)) (rs : List R) (h : collect l = .ok rs) : ∀ x ∈ l, ∃ r, x = .ok r := by
  induction l generalizing rs with
  | nil => simp
  | cons x xs ih =>
    intro y hy
    cases x with
    | error e => simp [collect, Except.bind] at h
    | ok r =>
      simp only [List.mem_cons] at hy
      rcases hy with rfl | hy
      · exact ⟨r, rfl⟩
      · cases hc : collect xs with
        | error e => simp [collect, Except.bind, hc] at h
        | ok rs' => exact ih rs' hc y hy

/-- The size of the leftmost dimension. -/
def Arg.head : Arg K O → Option ℕ
  | .tensor t => some (t.shape.headD 0)
  | _ => none

theorem sizes_eq (j : ℕ) (ps : List (ℕ × Arg K O)) :
    sizes ((ps.map Prod.fst).map fun r => decide (j < r)) (ps.map Prod.snd) = ps.filterMap fun p => if j < p.1 then p.2.head else none := by
  unfold sizes
  rw [List.map_map, List.zip_map', List.filterMap_map]
  congr 1
  funext p
  obtain ⟨r, a⟩ := p
  by_cases h : j < r <;> cases a <;> simp [h, Arg.head]

theorem slices_eq (j b : ℕ) (ps : List (ℕ × Arg K O)) :
    List.zipWith (fun d a => if d then Arg.slice b a else a) ((ps.map Prod.fst).map fun r => decide (j < r)) (ps.map Prod.snd) =
      (ps.map fun p => (p.1, if j < p.1 then p.2.slice b else p.2)).map Prod.snd := by
  induction ps with
  | nil => rfl
  | cons p ps ih => simp [ih]

theorem vmap_eq (fn : List (Arg K O) → R) (j : ℕ) (ps : List (ℕ × Arg K O)) :
    build fn (ps.map Prod.fst) (j + 1) (ps.map Prod.snd) = (match ps.filterMap (fun p => if j < p.1 then p.2.head else none) with
      | [] => .error .valueError
      | n :: rest =>
        if rest.all (· == n) then
          (collect ((List.range n).map fun b => build fn (ps.map Prod.fst) j ((ps.map fun p => (p.1, if j < p.1 then p.2.slice b else p.2)).map Prod.snd))).map .node
        else .error .valueError) := by
  simp only [build, vmap, sizes_eq, slices_eq]
  rfl

theorem fits_slice {j n : ℕ} {B : List ℕ} (hB : B.length = j) (b r : ℕ) (a : Arg K O) (h : Fits (n :: B) (min r (j + 1)) a) :
    Fits B (min r j) (if j < r then a.slice b else a) ∧ (j < r → a.head = some n) ∧
    ∀ idx, idx.length = j → itemR (min r j) idx (if j < r then a.slice b else a) = itemR (min r (j + 1)) (b :: idx) a := by
  by_cases hr : j < r
  · rw [if_pos hr]
    have e1 : min r (j + 1) = j + 1 := by omega
    have e2 : min r j = j := by omega
    rw [e1] at h
    rcases h with h | ⟨t, rfl, h1, h2⟩
    · omega
    · have hlen : (t.shape.take (j + 1)).length = (n :: B).length := by simp; omega
      have heq : t.shape.take (j + 1) = n :: B := h1.eq_of_length hlen
      cases hs : t.shape with
      | nil => rw [hs] at h2; simp at h2
      | cons m rest =>
        rw [hs, List.take_succ_cons] at heq
        simp only [List.cons.injEq] at heq
        obtain ⟨rfl, heq⟩ := heq
        refine ⟨?_, fun _ => by simp [Arg.head, hs], ?_⟩
        · right
          refine ⟨_, rfl, ?_, ?_⟩
          · simp only [e2, hs, List.tail_cons, heq]; exact List.suffix_refl _
          · rw [hs] at h2; simp only [e2, hs, List.tail_cons]; simp at h2; omega
        · intro idx hidx
          have d1 : idx.length - j = 0 := by omega
          have d2 : (b :: idx).length - (j + 1) = 0 := by simp; omega
          simp only [Arg.slice, itemR, e1, e2, hs, List.tail_cons, List.drop_succ_cons, d1, d2, List.drop_zero, List.cons_append]
  · rw [if_neg hr]
    have e1 : min r (j + 1) = min r j := by omega
    rw [e1] at h ⊢
    refine ⟨?_, fun h => absurd h hr, ?_⟩
    · rcases h with h | ⟨t, rfl, h1, h2⟩
      · exact .inl h
      · right
        refine ⟨t, rfl, ?_, h2⟩
        rcases List.suffix_cons_iff.1 h1 with h3 | h3
        · have := congrArg List.length h3
          simp at this; omega
        · exact h3
    · intro idx hidx
      cases a with
      | tensor t =>
        simp only [itemR]
        have : (b :: idx).length - min r j = (idx.length - min r j) + 1 := by simp; omega
        rw [this, List.drop_succ_cons]
      | number x i => rfl
      | array t => rfl
      | other o => rfl

theorem all_same (l : List ℕ) (n : ℕ) (h : ∀ x ∈ l, x = n) (hne : l ≠ []) : ∃ rest, l = n :: rest ∧ rest.all (· == n) = true := by
  cases l with
  | nil => exact absurd rfl hne
  | cons x xs =>
    refine ⟨xs, by rw [h x (by simp)], ?_⟩
    rw [List.all_eq_true]
    intro y hy
    simp [h y (by simp [hy])]

theorem build_ok (fn : List (Arg K O) → R) (j : ℕ) : ∀ (B : List ℕ) (ps : List (ℕ × Arg K O)), B.length = j →
    (∀ p ∈ ps, Fits B (min p.1 j) p.2) → (j = 0 ∨ ∃ p ∈ ps, j ≤ p.1) →
    ∃ tree, build fn (ps.map Prod.fst) j (ps.map Prod.snd) = .ok tree ∧ HasShape B tree ∧
      ∀ idx, Position idx B → tree.get idx = some (fn (ps.map fun p => itemR (min p.1 j) idx p.2)) := by
  induction j with
  | zero =>
    intro B ps hB hfit _
    have hB' : B = [] := List.length_eq_zero_iff.1 hB
    subst hB'
    refine ⟨.leaf (fn (ps.map Prod.snd)), rfl, trivial, ?_⟩
    intro idx hidx
    cases hidx
    simp only [Tree.get]
    congr 2
    apply List.map_congr_left
    intro p _
    obtain ⟨r, a⟩ := p
    cases a <;> simp [itemR]
  | succ j ih =>
    intro B ps hB hfit hex
    cases B with
    | nil => simp at hB
    | cons n B =>
      have hBj : B.length = j := by simpa using hB
      rcases hex with hex | ⟨q, hq, hqj⟩
      · omega
      have hsz : ∀ x ∈ ps.filterMap (fun p => if j < p.1 then p.2.head else none), x = n := by
        intro x hx
        rw [List.mem_filterMap] at hx
        obtain ⟨p, hp, hx⟩ := hx
        by_cases hj : j < p.1
        · rw [if_pos hj, (fits_slice hBj 0 p.1 p.2 (hfit p hp)).2.1 hj] at hx
          exact (Option.some.inj hx).symm
        · rw [if_neg hj] at hx; cases hx
      have hne : ps.filterMap (fun p => if j < p.1 then p.2.head else none) ≠ [] := by
        intro hnil
        have hj : j < q.1 := hqj
        have : n ∈ ps.filterMap (fun p => if j < p.1 then p.2.head else none) := by
          rw [List.mem_filterMap]
          exact ⟨q, hq, by rw [if_pos hj, (fits_slice hBj 0 q.1 q.2 (hfit q hq)).2.1 hj]⟩
        rw [hnil] at this; cases this
      obtain ⟨rest, hl, hall⟩ := all_same _ n hsz hne
      have key : ∀ b, ∃ tree, build fn (ps.map Prod.fst) j ((ps.map fun p => (p.1, if j < p.1 then p.2.slice b else p.2)).map Prod.snd) = .ok tree ∧
          HasShape B tree ∧ ∀ idx, Position idx B → tree.get idx = some (fn (ps.map fun p => itemR (min p.1 (j + 1)) (b :: idx) p.2)) := by
        intro b
        obtain ⟨tree, h1, h2, h3⟩ := ih B (ps.map fun p => (p.1, if j < p.1 then p.2.slice b else p.2)) hBj
          (by
            intro p hp
            rw [List.mem_map] at hp
            obtain ⟨p', hp', rfl⟩ := hp
            exact (fits_slice hBj b p'.1 p'.2 (hfit p' hp')).1)
          (by
            right
            exact ⟨_, List.mem_map.2 ⟨q, hq, rfl⟩, by simp only []; omega⟩)
        refine ⟨tree, ?_, h2, ?_⟩
        · rw [← h1]; congr 1; simp
        · intro idx hidx
          rw [h3 idx hidx, List.map_map]
          congr 2
          apply List.map_congr_left
          intro p hp
          have hlen : idx.length = j := by rw [hidx.length_eq]; exact hBj
          exact (fits_slice hBj b p.1 p.2 (hfit p hp)).2.2 idx hlen
      choose trees t1 t2 t3 using key
      refine ⟨.node ((List.range n).map trees), ?_, ?_, ?_⟩
      · rw [vmap_eq, hl]
        simp only [hall, if_true]
        rw [collect_ok _ trees _ fun b _ => t1 b]
        rfl
      · refine ⟨by simp, ?_⟩
        intro t ht
        rw [List.mem_map] at ht
        obtain ⟨b, _, rfl⟩ := ht
        exact t2 b
      · intro idx hidx
        cases hidx with
        | cons hb hrest =>
          rename_i b idx
          simp only [Tree.get, List.getElem?_map, List.getElem?_range hb, Option.map_some, Option.bind_some]
          exact t3 b idx hrest

/-- Success means that there is a common batch shape, if no batch dimension is empty. -/
theorem build_fits (fn : List (Arg K O) → R) (j : ℕ) : ∀ (ps : List (ℕ × Arg K O)) (tree : Tree R),
    (∀ p ∈ ps, min p.1 j = 0 ∨ ∃ t, p.2 = .tensor t ∧ min p.1 j ≤ t.shape.length ∧ ∀ n ∈ t.shape.take (min p.1 j), 0 < n) →
    build fn (ps.map Prod.fst) j (ps.map Prod.snd) = .ok tree → ∃ B : List ℕ, B.length = j ∧ ∀ p ∈ ps, Fits B (min p.1 j) p.2 := by
  induction j with
  | zero => intro ps tree _ _; exact ⟨[], rfl, fun p _ => .inl (by simp)⟩
  | succ j ih =>
    intro ps tree hpos h
    rw [vmap_eq] at h
    cases hf : ps.filterMap (fun p => if j < p.1 then p.2.head else none) with
    | nil => rw [hf] at h; cases h
    | cons n rest =>
      rw [hf] at h
      simp only [] at h
      split at h
      · rename_i hall
        have hsz : ∀ x ∈ ps.filterMap (fun p => if j < p.1 then p.2.head else none), x = n := by
          intro x hx
          rw [hf, List.mem_cons] at hx
          rcases hx with rfl | hx
          · rfl
          · have := List.all_eq_true.1 hall x hx; simpa using this
        have hhead : ∀ p ∈ ps, j < p.1 → ∃ t s, p.2 = .tensor t ∧ t.shape = n :: s ∧ j ≤ s.length ∧ (∀ m ∈ s.take j, 0 < m) ∧ 0 < n := by
          intro p hp hj
          rcases hpos p hp with h0 | ⟨t, ht, hle, hm⟩
          · omega
          · have e : min p.1 (j + 1) = j + 1 := by omega
            rw [e] at hle hm
            cases hs : t.shape with
            | nil => rw [hs] at hle; simp at hle
            | cons m s =>
              have : m = n := hsz m (by rw [List.mem_filterMap]; exact ⟨p, hp, by rw [if_pos hj, ht]; simp [Arg.head, hs]⟩)
              subst this
              rw [hs] at hle hm
              simp only [List.take_succ_cons, List.mem_cons, forall_eq_or_imp, List.length_cons] at hm hle
              exact ⟨t, s, ht, hs, by omega, hm.2, hm.1⟩
        have hn : 0 < n := by
          have hmem : n ∈ ps.filterMap (fun p => if j < p.1 then p.2.head else none) := by rw [hf]; simp
          rw [List.mem_filterMap] at hmem
          obtain ⟨p, hp, hx⟩ := hmem
          by_cases hj : j < p.1
          · obtain ⟨_, _, _, _, _, _, h⟩ := hhead p hp hj; exact h
          · rw [if_neg hj] at hx; cases hx
        have hb0 : ∃ r, build fn (ps.map Prod.fst) j ((ps.map fun p => (p.1, if j < p.1 then p.2.slice 0 else p.2)).map Prod.snd) = .ok r := by
          cases hc : collect ((List.range n).map fun b => build fn (ps.map Prod.fst) j ((ps.map fun p => (p.1, if j < p.1 then p.2.slice b else p.2)).map Prod.snd)) with
          | error e => rw [hc] at h; cases h
          | ok rs => exact collect_mem _ rs hc _ (List.mem_map.2 ⟨0, List.mem_range.2 hn, rfl⟩)
        obtain ⟨t0, ht0⟩ := hb0
        obtain ⟨B, hB, hfit⟩ := ih (ps.map fun p => (p.1, if j < p.1 then p.2.slice 0 else p.2)) t0
          (by
            intro p hp
            rw [List.mem_map] at hp
            obtain ⟨p', hp', rfl⟩ := hp
            simp only []
            by_cases hj : j < p'.1
            · obtain ⟨t, s, h1, h2, h3, h4, _⟩ := hhead p' hp' hj
              right
              have e : min p'.1 j = j := by omega
              rw [if_pos hj, h1, e]
              exact ⟨_, rfl, by simpa [h2] using h3, by simpa [h2] using h4⟩
            · rw [if_neg hj]
              have e : min p'.1 (j + 1) = min p'.1 j := by omega
              have := hpos p' hp'
              rwa [e] at this)
          (by rw [← ht0]; congr 1; simp)
        refine ⟨n :: B, by simp [hB], ?_⟩
        intro p hp
        have hf := hfit _ (List.mem_map.2 ⟨p, hp, rfl⟩)
        simp only [] at hf
        by_cases hj : j < p.1
        · obtain ⟨t, s, h1, h2, h3, _, _⟩ := hhead p hp hj
          have e : min p.1 j = j := by omega
          have e1 : min p.1 (j + 1) = j + 1 := by omega
          rw [if_pos hj, h1, e] at hf
          rw [e1]
          right
          refine ⟨t, h1, ?_, by simp [h2]; omega⟩
          rw [h2, List.take_succ_cons]
          rcases hf with h0 | ⟨t', ht', hsuf, _⟩
          · subst h0
            have : B = [] := List.length_eq_zero_iff.1 hB
            subst this; simp
          · simp only [Arg.slice, Arg.tensor.injEq] at ht'
            subst ht'
            simp only [h2, List.tail_cons] at hsuf
            have := hsuf.eq_of_length (by simp [hB]; omega)
            rw [this]
        · rw [if_neg hj] at hf
          have e : min p.1 (j + 1) = min p.1 j := by omega
          rw [e]
          rcases hf with h0 | ⟨t, h1, h2, h3⟩
          · exact .inl h0
          · exact .inr ⟨t, h1, List.suffix_cons_iff.2 (.inr h2), h3⟩
      · cases h

/-- Only ValueErrors are possible. -/
theorem build_error (fn : List (Arg K O) → R) (rs : List ℕ) (j : ℕ) : ∀ args e, build fn rs j args = .error e → e = .valueError := by
  have hcol : ∀ (l : List (Except PyErr (Tree R))) e, collect l = .error e → (∀ x ∈ l, ∀ e', x = .error e' → e' = .valueError) → e = .valueError := by
    intro l
    induction l with
    | nil => intro e h _; simp [collect] at h
    | cons x xs ih =>
      intro e h hx
      cases x with
      | error e' => simp only [collect, Except.bind, Except.error.injEq] at h; subst h; exact hx _ (by simp) _ rfl
      | ok r =>
        cases hc : collect xs with
        | error e' => simp only [collect, Except.bind, hc, Except.error.injEq] at h; subst h; exact ih _ hc fun y hy => hx y (by simp [hy])
        | ok rs => simp [collect, Except.bind, hc] at h
  induction j with
  | zero => intro args e h; cases h
  | succ j ih =>
    intro args e h
    simp only [build, vmap] at h
    split at h
    · cases h; rfl
    · split at h
      · rename_i n rest _ _
        cases hc : collect ((List.range n).map fun b => build fn rs j (List.zipWith (fun d a => if d then Arg.slice b a else a) (rs.map fun r => decide (j < r)) args)) with
        | error e' =>
          rw [hc] at h
          simp only [Except.map, Except.error.injEq] at h
          subst h
          refine hcol _ _ hc ?_
          intro x hx e' he
          rw [List.mem_map] at hx
          obtain ⟨b, _, rfl⟩ := hx
          exact ih _ _ he
        | ok rs => rw [hc] at h; cases h
      · cases h; rfl

/-! ### The loop -/

/-- The remaining extra dimensions after `j` rounds. -/
def remaining (e : Option ℕ) (r j : ℕ) : Option ℕ := e.map fun d => d + r - min r j

/-- What is known of an argument: its number of extra dimensions is `r`; without a declaration it is zero. -/
def Known (slot : Option ℕ × ℕ) : Prop := slot.1 = none → slot.2 = 0

theorem extraDim_eq (slot : Option ℕ × ℕ) (w : Option ℕ) (hk : Known slot) (j : ℕ)
    (hw : w = remaining slot.1 slot.2 j ∨ (slot.2 = 0 ∧ ∃ d n, slot.1 = some d ∧ w = some n ∧ n ≤ d)) :
    extraDim (slot.1, w) = decide (j < slot.2) ∧
    (dropDim (slot.1, w) = remaining slot.1 slot.2 (j + 1) ∨ (slot.2 = 0 ∧ ∃ d n, slot.1 = some d ∧ dropDim (slot.1, w) = some n ∧ n ≤ d)) := by
  obtain ⟨e, r⟩ := slot
  simp only at *
  rcases hw with rfl | ⟨rfl, d, n, rfl, rfl, hn⟩
  · cases e with
    | none =>
      have : r = 0 := hk rfl
      subst this
      simp [extraDim, dropDim, remaining]
    | some d =>
      have h1 : extraDim (some d, remaining (some d) r j) = decide (j < r) := by
        simp only [extraDim, remaining, Option.map_some, decide_eq_decide]; omega
      refine ⟨h1, .inl ?_⟩
      simp only [dropDim, h1]
      simp only [remaining, Option.map_some, decide_eq_true_eq]
      split
      · congr 1; omega
      · congr 1; omega
  · have h1 : extraDim (some d, some n) = false := by simp [extraDim]; omega
    refine ⟨by simp [h1], .inr ⟨rfl, d, n, rfl, ?_, hn⟩⟩
    simp [dropDim, h1]

theorem wrapLoop_eq (fn : List (Arg K O) → R) (slots : List (Option ℕ × ℕ)) (hk : ∀ s ∈ slots, Known s) (m : ℕ) (hm : ∀ s ∈ slots, s.2 ≤ m)
    (hex : m = 0 ∨ ∃ s ∈ slots, s.2 = m) : ∀ fuel j (ws : List (Option ℕ)), j ≤ m → m < fuel + j → ws.length = slots.length →
    (∀ (i : ℕ) (s : Option ℕ × ℕ) (w : Option ℕ), slots[i]? = some s → ws[i]? = some w → w = remaining s.1 s.2 j ∨ (s.2 = 0 ∧ ∃ d n, s.1 = some d ∧ w = some n ∧ n ≤ d)) →
    wrapLoop (slots.map Prod.fst) fuel ws (build fn (slots.map Prod.snd) j) = some (build fn (slots.map Prod.snd) m) := by
  intro fuel
  induction fuel with
  | zero => intro j ws h1 h2; omega
  | succ fuel ih =>
    intro j ws hj hfuel hlen hws
    have hin : ((slots.map Prod.fst).zip ws).map extraDim = (slots.map Prod.snd).map fun r => decide (j < r) := by
      apply List.ext_getElem?
      intro i
      simp only [List.getElem?_map, List.zip, List.getElem?_zipWith]
      cases hs : slots[i]? with
      | none => simp
      | some s =>
        have : i < ws.length := by rw [hlen]; exact (List.getElem?_eq_some_iff.1 hs).1
        cases hw : ws[i]? with
        | none => rw [List.getElem?_eq_none_iff] at hw; omega
        | some w =>
          simp only [Option.map_some]
          rw [(extraDim_eq s w (hk s (List.mem_of_getElem? hs)) j (hws i s w hs hw)).1]
    have hdrop : ∀ (i : ℕ) (s : Option ℕ × ℕ) (w' : Option ℕ), slots[i]? = some s → (((slots.map Prod.fst).zip ws).map dropDim)[i]? = some w' →
        w' = remaining s.1 s.2 (j + 1) ∨ (s.2 = 0 ∧ ∃ d n, s.1 = some d ∧ w' = some n ∧ n ≤ d) := by
      intro i s w' hs hw'
      have : i < ws.length := by rw [hlen]; exact (List.getElem?_eq_some_iff.1 hs).1
      cases hw : ws[i]? with
      | none => rw [List.getElem?_eq_none_iff] at hw; omega
      | some w =>
        simp only [List.getElem?_map, List.zip, List.getElem?_zipWith, hs, hw, Option.map_some, Option.some.injEq] at hw'
        subst hw'
        exact (extraDim_eq s w (hk s (List.mem_of_getElem? hs)) j (hws i s w hs hw)).2
    simp only [wrapLoop, hin]
    by_cases hjm : j = m
    · subst hjm
      rw [if_neg]
      simp only [List.any_eq_true, List.mem_map, not_exists, not_and]
      rintro x ⟨r, ⟨s, hs, rfl⟩, rfl⟩
      simp [hm s hs]
    · have hlt : j < m := by omega
      rw [if_pos]
      · have := ih (j + 1) (((slots.map Prod.fst).zip ws).map dropDim) (by omega) (by omega) (by simp [hlen]) hdrop
        simpa [build] using this
      · rcases hex with h0 | ⟨s, hs, h⟩
        · omega
        · simp only [List.any_eq_true, List.mem_map]
          exact ⟨true, ⟨s.2, ⟨s, hs, rfl⟩, by simp; omega⟩, rfl⟩

/-! ### Theorems -/

/-- The declared arguments are tensors with enough dimensions (arguments declared as None are anything). -/
def Proper (slots : List (Option ℕ × Arg K O)) : Prop :=
  ∀ p ∈ slots, ∀ d, p.1 = some d → ∃ t, p.2 = .tensor t ∧ d ≤ t.shape.length

theorem convertAll_proper (all slots : List (Option ℕ × Arg K O)) (h : Proper slots) : convertAll false all slots = .ok (slots.map Prod.snd) := by
  induction slots with
  | nil => rfl
  | cons p ps ih =>
    obtain ⟨e, a⟩ := p
    have ih' := ih fun q hq => h q (by simp [hq])
    cases e with
    | none => simp [convertAll, convert, tooSmall, ih', Except.bind]
    | some d =>
      obtain ⟨t, ht, hd⟩ := h (some d, a) (by simp) d rfl
      simp only at ht
      subst ht
      have : ¬ t.shape.length < d := by omega
      simp [convertAll, convert, tooSmall, Arg.ndim, this, ih', Except.bind]

theorem decorated_build (slots : List (Option ℕ × Arg K O)) (fn : List (Arg K O) → R) (h : Proper slots) (m : ℕ) (hm : ∀ p ∈ slots, batchRank p.1 p.2 ≤ m)
    (hex : m = 0 ∨ ∃ p ∈ slots, batchRank p.1 p.2 = m) :
    decorated (slots.map Prod.fst) false fn (slots.map Prod.snd) = build fn (slots.map fun p => batchRank p.1 p.2) m (slots.map Prod.snd) := by
  have hz : (slots.map Prod.fst).zip (slots.map Prod.snd) = slots := by
    rw [List.zip_map']; simp
  have hr : m < rounds (slots.map Prod.snd) := by
    rcases hex with rfl | ⟨p, hp, rfl⟩
    · simp [rounds]
    · have h1 : batchRank p.1 p.2 ≤ p.2.ndim := by
        obtain ⟨e, a⟩ := p
        cases e <;> cases a <;> simp [batchRank, Arg.ndim]
      have h2 : p.2.ndim ≤ ((slots.map Prod.snd).map Arg.ndim).sum := by
        clear hm hz h
        induction slots with
        | nil => cases hp
        | cons q qs ih =>
          simp only [List.mem_cons] at hp
          simp only [List.map_cons, List.sum_cons]
          rcases hp with rfl | hp
          · omega
          · have := ih hp; omega
      unfold rounds; omega
  have hloop := wrapLoop_eq fn (slots.map fun p => (p.1, batchRank p.1 p.2))
    (by
      intro s hs
      rw [List.mem_map] at hs
      obtain ⟨p, _, rfl⟩ := hs
      intro hnone
      simp only at hnone
      simp [hnone, batchRank]) m
    (by
      intro s hs
      rw [List.mem_map] at hs
      obtain ⟨p, hp, rfl⟩ := hs
      exact hm p hp)
    (by
      rcases hex with h0 | ⟨p, hp, h1⟩
      · exact .inl h0
      · exact .inr ⟨_, List.mem_map.2 ⟨p, hp, rfl⟩, h1⟩)
    (rounds (slots.map Prod.snd)) 0 (wrappedNdims (slots.map Prod.fst) (slots.map Prod.snd)) (by omega) (by omega)
    (by simp [wrappedNdims])
    (by
      intro i s w hs hw
      left
      simp only [wrappedNdims, hz, List.getElem?_map] at hs hw
      cases hp : slots[i]? with
      | none => rw [hp] at hs; cases hs
      | some p =>
        rw [hp] at hs hw
        simp only [Option.map_some, Option.some.injEq] at hs hw
        subst hs; subst hw
        obtain ⟨e, a⟩ := p
        cases e with
        | none => rfl
        | some d =>
          obtain ⟨t, ht, hd⟩ := h (some d, a) (List.mem_of_getElem? hp) d rfl
          simp only at ht
          subst ht
          simp only [remaining, batchRank, Arg.ndim, Option.map_some, Nat.min_zero]
          congr 1; omega)
  simp only [decorated, hz, convertAll_proper slots slots h, Except.bind]
  rw [List.map_map, List.map_map] at hloop
  simp only [Function.comp_def] at hloop
  change (match wrapLoop (slots.map fun p => p.1) _ _ (build fn (slots.map fun p => batchRank p.1 p.2) 0) with | none => _ | some f => _) = _
  rw [hloop]

theorem batchShape_eq (p : Option ℕ × Arg K O) : (batchShape p.1 p.2).length = batchRank p.1 p.2 := by
  obtain ⟨e, a⟩ := p
  cases e <;> cases a <;> simp [batchShape, batchRank]

theorem item_eq (p : Option ℕ × Arg K O) (idx : List ℕ) : itemR (batchRank p.1 p.2) idx p.2 = item p.1 idx p.2 := by
  obtain ⟨e, a⟩ := p
  cases e <;> cases a <;> simp [item, itemR, batchRank]

/-- **C60.** If the arguments have enough dimensions and a common batch shape `B` (right-aligned), the decorated function succeeds, its result has the shape `B`, and at each position of `B` it holds what the
function returns for the items of the arguments at that position: arguments with fewer batch dimensions are shared along the leading ones, arguments without batch dimensions everywhere. -/
theorem C60_batched (slots : List (Option ℕ × Arg K O)) (fn : List (Arg K O) → R) (h : Proper slots) (B : List ℕ) (hB : CommonBatch slots B) :
    ∃ tree, decorated (slots.map Prod.fst) false fn (slots.map Prod.snd) = .ok tree ∧ HasShape B tree ∧
      ∀ idx, Position idx B → tree.get idx = some (fn (slots.map fun p => item p.1 idx p.2)) := by
  obtain ⟨hsuf, hex⟩ := hB
  have hle : ∀ p ∈ slots, batchRank p.1 p.2 ≤ B.length := fun p hp => by rw [← batchShape_eq]; exact (hsuf p hp).length_le
  have hex' : B.length = 0 ∨ ∃ p ∈ slots, batchRank p.1 p.2 = B.length := by
    rcases hex with rfl | ⟨p, hp, hpB⟩
    · exact .inl rfl
    · exact .inr ⟨p, hp, by rw [← batchShape_eq, hpB]⟩
  rw [decorated_build slots fn h B.length hle hex']
  obtain ⟨tree, h1, h2, h3⟩ := build_ok fn B.length B (slots.map fun p => (batchRank p.1 p.2, p.2)) rfl
    (by
      intro q hq
      rw [List.mem_map] at hq
      obtain ⟨p, hp, rfl⟩ := hq
      have e : min (batchRank p.1 p.2) B.length = batchRank p.1 p.2 := by have := hle p hp; omega
      simp only [e]
      have hs := hsuf p hp
      obtain ⟨d, a⟩ := p
      cases d with
      | none => left; rfl
      | some d =>
        cases a with
        | tensor t => right; exact ⟨t, rfl, hs, by simp [batchRank]⟩
        | number x i => left; rfl
        | array t => left; rfl
        | other o => left; rfl)
    (by
      rcases hex' with h0 | ⟨p, hp, h1⟩
      · exact .inl h0
      · exact .inr ⟨_, List.mem_map.2 ⟨p, hp, rfl⟩, by simp only []; omega⟩)
  refine ⟨tree, ?_, h2, ?_⟩
  · rw [← h1, List.map_map, List.map_map]; rfl
  · intro idx hidx
    rw [h3 idx hidx, List.map_map]
    congr 2
    apply List.map_congr_left
    intro p hp
    have e : min (batchRank p.1 p.2) B.length = batchRank p.1 p.2 := by have := hle p hp; omega
    simp only [Function.comp_apply, e, item_eq]

/-- **C60.** Otherwise (the batch dimensions do not agree, none of them being empty) it raises a ValueError. -/
theorem C60_mismatch (slots : List (Option ℕ × Arg K O)) (fn : List (Arg K O) → R) (h : Proper slots) (hpos : ∀ p ∈ slots, ∀ n ∈ batchShape p.1 p.2, 0 < n)
    (hno : ¬ ∃ B, CommonBatch slots B) : decorated (slots.map Prod.fst) false fn (slots.map Prod.snd) = .error .valueError := by
  -- the largest number of batch dimensions
  have hmax : ∃ m, (∀ p ∈ slots, batchRank p.1 p.2 ≤ m) ∧ (m = 0 ∨ ∃ p ∈ slots, batchRank p.1 p.2 = m) := by
    clear h hpos hno
    induction slots with
    | nil => exact ⟨0, by simp, .inl rfl⟩
    | cons q qs ih =>
      obtain ⟨m, h1, h2⟩ := ih
      by_cases hq : batchRank q.1 q.2 ≤ m
      · refine ⟨m, ?_, ?_⟩
        · intro p hp
          rcases List.mem_cons.1 hp with rfl | hp
          · exact hq
          · exact h1 p hp
        · rcases h2 with h0 | ⟨p, hp, hpm⟩
          · exact .inl h0
          · exact .inr ⟨p, by simp [hp], hpm⟩
      · refine ⟨batchRank q.1 q.2, ?_, .inr ⟨q, by simp, rfl⟩⟩
        intro p hp
        rcases List.mem_cons.1 hp with rfl | hp
        · exact le_rfl
        · have := h1 p hp; omega
  obtain ⟨m, hm, hex⟩ := hmax
  rw [decorated_build slots fn h m hm hex]
  cases hb : build fn (slots.map fun p => batchRank p.1 p.2) m (slots.map Prod.snd) with
  | error e => rw [build_error fn _ m _ e hb]
  | ok tree =>
    exfalso
    apply hno
    obtain ⟨B, hB, hfit⟩ := build_fits fn m (slots.map fun p => (batchRank p.1 p.2, p.2)) tree
      (by
        intro q hq
        rw [List.mem_map] at hq
        obtain ⟨p, hp, rfl⟩ := hq
        have e : min (batchRank p.1 p.2) m = batchRank p.1 p.2 := by have := hm p hp; omega
        have hpos' := hpos p hp
        simp only [e]
        obtain ⟨d, a⟩ := p
        cases d with
        | none => left; rfl
        | some d =>
          cases a with
          | tensor t => right; exact ⟨t, rfl, by simp [batchRank], hpos'⟩
          | number x i => left; rfl
          | array t => left; rfl
          | other o => left; rfl)
      (by rw [← hb, List.map_map, List.map_map]; rfl)
    refine ⟨B, ?_, ?_⟩
    · intro p hp
      have hf := hfit _ (List.mem_map.2 ⟨p, hp, rfl⟩)
      have e : min (batchRank p.1 p.2) m = batchRank p.1 p.2 := by have := hm p hp; omega
      simp only [e] at hf
      rcases hf with h0 | ⟨t, ht, hs, _⟩
      · rw [← batchShape_eq] at h0
        rw [List.length_eq_zero_iff.1 h0]
        exact List.nil_suffix
      · obtain ⟨d, a⟩ := p
        simp only at ht
        subst ht
        cases d with
        | none => exact List.nil_suffix
        | some d => exact hs
    · rcases hex with h0 | ⟨p, hp, hpm⟩
      · left; exact List.length_eq_zero_iff.1 (by omega)
      · right
        refine ⟨p, hp, ?_⟩
        have hf := hfit _ (List.mem_map.2 ⟨p, hp, rfl⟩)
        have e : min (batchRank p.1 p.2) m = batchRank p.1 p.2 := by have := hm p hp; omega
        simp only [e] at hf
        have hlen : (batchShape p.1 p.2).length = B.length := by rw [batchShape_eq]; omega
        rcases hf with h0 | ⟨t, ht, hs, _⟩
        · have h1 : batchShape p.1 p.2 = [] := List.length_eq_zero_iff.1 (by rw [batchShape_eq]; exact h0)
          have h2 : B = [] := List.length_eq_zero_iff.1 (by rw [← hlen, h1]; rfl)
          rw [h1, h2]
        · obtain ⟨d, a⟩ := p
          simp only at ht
          subst ht
          cases d with
          | none => exact (List.length_eq_zero_iff.1 (by rw [← hlen]; rfl)).symm ▸ rfl
          | some d => exact hs.eq_of_length hlen

/-- **C60.** Too few dimensions raise a ValueError. -/
theorem C60_too_few_dimensions (pre post : List (Option ℕ × Arg K O)) (fn : List (Arg K O) → R) (h : Proper pre) (d : ℕ) (t : Ten K) (hd : t.shape.length < d) :
    decorated ((pre ++ (some d, .tensor t) :: post).map Prod.fst) false fn ((pre ++ (some d, .tensor t) :: post).map Prod.snd) = .error .valueError := by
  have hz : ∀ l : List (Option ℕ × Arg K O), (l.map Prod.fst).zip (l.map Prod.snd) = l := by
    intro l; rw [List.zip_map']; simp
  have key : ∀ all, convertAll false all (pre ++ (some d, .tensor t) :: post) = .error .valueError := by
    intro all
    induction pre with
    | nil => simp [convertAll, convert, tooSmall, Arg.ndim, hd, Except.bind]
    | cons p ps ih =>
      obtain ⟨e, a⟩ := p
      have ih' := ih fun q hq => h q (by simp [hq])
      cases e with
      | none => simp [convertAll, convert, tooSmall, ih', Except.bind]
      | some d' =>
        obtain ⟨t', ht, hd'⟩ := h (some d', a) (by simp) d' rfl
        simp only at ht
        subst ht
        have : ¬ t'.shape.length < d' := by omega
        simp [convertAll, convert, tooSmall, Arg.ndim, this, ih', Except.bind]
  simp only [decorated, hz, key, Except.bind]

/-- **C60.** `rowwise`: the function is applied to each vector along the last dimension. -/
theorem C60_rowwise (fn : List (Arg K O) → R) (t : Ten K) (B : List ℕ) (n : ℕ) (ht : t.shape = B ++ [n]) :
    ∃ tree, rowwise fn (.tensor t : Arg K O) = .ok tree ∧ HasShape B tree ∧
      ∀ idx, Position idx B → tree.get idx = some (fn [.tensor { t with shape := [n], val := fun core => t.val (idx ++ core) }]) := by
  have hr : t.shape.length - 1 = B.length := by rw [ht]; simp
  obtain ⟨tree, h1, h2, h3⟩ := C60_batched [(some 1, (.tensor t : Arg K O))] fn
    (by intro p hp d hd; simp at hp; subst hp; simp at hd; subst hd; exact ⟨t, rfl, by rw [ht]; simp⟩) B
    ⟨by intro p hp; simp at hp; subst hp; simp [batchShape, ht],
      .inr ⟨_, List.mem_singleton.2 rfl, by simp [batchShape, ht]⟩⟩
  refine ⟨tree, h1, h2, fun idx hidx => ?_⟩
  rw [h3 idx hidx]
  have hl : idx.length = B.length := hidx.length_eq
  have hd0 : (B ++ [n]).length - 1 = B.length := by simp
  simp [item, ht, hl]

/-- A batch of 2x3 vectors of length 4 with a vector of 3 scalars. -/
def demoSlots : List (Option ℕ × Arg ℕ Unit) :=
  [(some 1, .tensor ⟨[2, 3, 4], fun i => i.sum, 1, 0⟩), (some 0, .tensor ⟨[3], fun i => i.sum, 1, 0⟩), (none, .other ())]

example : Proper demoSlots ∧ CommonBatch demoSlots [2, 3] := by
  refine ⟨?_, ?_, .inr ⟨_, List.mem_cons_self, rfl⟩⟩
  · intro p hp d hd
    simp only [demoSlots, List.mem_cons, List.not_mem_nil, or_false] at hp
    rcases hp with rfl | rfl | rfl
    · cases hd; exact ⟨_, rfl, by decide⟩
    · cases hd; exact ⟨_, rfl, by decide⟩
    · cases hd
  · intro p hp
    simp only [demoSlots, List.mem_cons, List.not_mem_nil, or_false] at hp
    rcases hp with rfl | rfl | rfl
    · exact List.suffix_refl _
    · exact ⟨[2], rfl⟩
    · exact List.nil_suffix

/-- A Python number as a tensor without dimensions, of the given dtype and device. -/
def asTensor (dtype device : ℕ) : Option ℕ × Arg K O → Option ℕ × Arg K O
  | (some d, .number x false) => (some d, .tensor ⟨[], fun _ => x, dtype, device⟩)
  | p => p

/-- **C60.** A number given for a declared argument is a tensor without dimensions, with the dtype and the device of the tensors among the arguments, if these agree. -/
theorem C60_numbers (slots : List (Option ℕ × Arg K O)) (fn : List (Arg K O) → R) (allow : Bool) (dtype device : ℕ) (hne : tensorsOf slots ≠ [])
    (hsame : ∀ t ∈ tensorsOf slots, t.dtype = dtype ∧ t.device = device) (hbool : ∀ p ∈ slots, ∀ x, p.2 ≠ .number x true) :
    decorated (slots.map Prod.fst) allow fn (slots.map Prod.snd) =
      decorated ((slots.map (asTensor dtype device)).map Prod.fst) allow fn ((slots.map (asTensor dtype device)).map Prod.snd) := by
  have hz : ∀ l : List (Option ℕ × Arg K O), (l.map Prod.fst).zip (l.map Prod.snd) = l := by
    intro l; rw [List.zip_map']; simp
  have hded : ∀ (f : Ten K → ℕ) (v : ℕ) (l : List (Ten K)), l ≠ [] → (∀ t ∈ l, f t = v) → (l.map f).dedup = [v] := by
    intro f v l
    induction l with
    | nil => intro h; exact absurd rfl h
    | cons t ts ih =>
      intro _ h
      cases ts with
      | nil => simp [h t (by simp)]
      | cons u us =>
        have := ih (by simp) fun w hw => h w (by simp [hw])
        rw [List.map_cons, List.dedup_cons_of_mem, this]
        rw [h t (by simp)]
        simp [h u (by simp)]
  have hsc : ∀ x, scalarToTensor slots x false = .ok ⟨[], fun _ => x, dtype, device⟩ := by
    intro x
    unfold scalarToTensor
    rw [hded Ten.device device _ hne fun t ht => (hsame t ht).2, hded Ten.dtype dtype _ hne fun t ht => (hsame t ht).1]
    rfl
  have hconv : ∀ (all : List (Option ℕ × Arg K O)) (l : List (Option ℕ × Arg K O)), (∀ p ∈ l, ∀ x, p.2 ≠ .number x true) →
      convertAll allow slots l = convertAll allow all (l.map (asTensor dtype device)) := by
    intro all l
    induction l with
    | nil => intro _; rfl
    | cons p ps ih =>
      intro hb
      obtain ⟨e, a⟩ := p
      have ih' := ih fun q hq => hb q (by simp [hq])
      cases e with
      | none => simp [asTensor, convertAll, convert, ih']
      | some d =>
        cases a with
        | tensor t => simp [asTensor, convertAll, convert, ih']
        | number x b =>
          cases b with
          | true => exact absurd rfl (hb (some d, .number x true) List.mem_cons_self x)
          | false => simp only [asTensor, convertAll, convert, ih', List.map_cons, hsc, Except.map]
        | array t => simp [asTensor, convertAll, convert, ih']
        | other o => simp [asTensor, convertAll, convert, ih']
  have hfst : (slots.map (asTensor dtype device)).map Prod.fst = slots.map Prod.fst := by
    rw [List.map_map]
    apply List.map_congr_left
    rintro ⟨e, a⟩ _
    cases e with
    | none => rfl
    | some d =>
      cases a with
      | number x b => cases b <;> rfl
      | tensor t => rfl
      | array t => rfl
      | other o => rfl
  unfold decorated
  rw [hz, hz, hfst, hconv _ slots hbool]

example : tensorsOf [(some 1, Arg.tensor (⟨[4], fun _ => (1 : ℕ), 1, 0⟩)), (some 0, (.number 7 false : Arg ℕ Unit))] ≠ [] := by simp [tensorsOf]

/-! ### Observations -/

/-- Arguments beyond the declared ones are silently dropped. -/
theorem C60_extra_arguments_dropped (fn : List (Arg K O) → R) (expected : List (Option ℕ)) (args extra : List (Arg K O)) (h : args.length = expected.length) (allow : Bool) :
    decorated expected allow fn (args ++ extra) = decorated expected allow fn args := by
  have : expected.zip (args ++ extra) = expected.zip args := by
    have := List.zip_append (l₁ := expected) (r₁ := ([] : List (Option ℕ))) (l₂ := args) (r₂ := extra) h.symm
    simpa using this
  unfold decorated
  rw [this]

/-- A tensor argument declared as None takes part in determining the dtype of a number, against the documentation ("considered arguments"): here the only considered tensor has dtype 1, but the number is refused because of
the dtype 2 of the other tensor. -/
theorem C60_scalar_refused (fn : List (Arg ℕ Unit) → R) (t u : Ten ℕ) (h1 : t.dtype = 1) (h2 : u.dtype = 2) (hd : t.device = u.device) (hs : t.shape = []) :
    decorated [none, some 0, some 0] false fn [.tensor u, .tensor t, .number 5 false] = .error .typeError := by
  simp [decorated, convertAll, convert, scalarToTensor, tensorsOf, h1, h2, hd, hs, tooSmall, Arg.ndim, Except.bind, Except.map]

end EvoTorch.ExpectsNdim
