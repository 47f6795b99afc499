import Verif.Model.BatchDims
import Verif.Model.CList
import Mathlib.Data.Nat.Notation
import Mathlib.Tactic.ByContra
/-!
C155: batched memories and structures with several batch dimensions.
-/
namespace EvoTorch.BatchDims

/-! ### Specification -/

/-- What reading a memory with batch shape `bs` should give: a result of the batch shape, whose item at each batch position is what that
batch position has stored for its own key. -/
def Reads {α : Type} (bs : List Nat) (data : List Nat → Nat → α) (key : List Nat → Nat) (r : Except PyErr (Tensor α)) : Prop :=
  ∃ t, r = .ok t ∧ t.shape = bs ∧ ∀ p, Within bs p → t.item p = data p (key p)

/-! ### Lemmas -/

theorem join_ok : ∀ {bs : List Nat} {m0 m : Nat}, join bs m0 = .ok m →
    (∀ b ∈ bs, b = 1 ∨ b = m) ∧ (m0 = 1 ∨ m0 = m) ∧ (m = m0 ∨ m ∈ bs)
  | [], m0, m, h => by
    simp only [join, Except.ok.injEq] at h
    subst h; simp
  | b :: bs, m0, m, h => by
    simp only [join] at h
    split at h
    · rename_i hb
      obtain ⟨h1, h2, h3⟩ := join_ok h
      refine ⟨?_, h2, ?_⟩
      · intro c hc
        rcases List.mem_cons.1 hc with rfl | hc
        · rcases hb with rfl | rfl
          · exact .inl rfl
          · exact h2
        · exact h1 c hc
      · rcases h3 with h3 | h3
        · exact .inl h3
        · exact .inr (List.mem_cons_of_mem _ h3)
    · split at h
      · rename_i hm
        obtain ⟨h1, h2, h3⟩ := join_ok h
        refine ⟨?_, .inl hm, ?_⟩
        · intro c hc
          rcases List.mem_cons.1 hc with rfl | hc
          · exact h2
          · exact h1 c hc
        · rcases h3 with rfl | h3
          · exact .inr (List.mem_cons_self ..)
          · exact .inr (List.mem_cons_of_mem _ h3)
      · exact absurd h (by simp)

theorem join_of : ∀ {bs : List Nat} {m0 m : Nat}, (∀ b ∈ bs, b = 1 ∨ b = m) → (m0 = 1 ∨ m0 = m) → (m = m0 ∨ m ∈ bs) →
    join bs m0 = .ok m
  | [], m0, m, _, _, h3 => by
    rcases h3 with rfl | h3
    · rfl
    · simp at h3
  | b :: bs, m0, m, h1, h2, h3 => by
    have hb := h1 b (List.mem_cons_self ..)
    have h1' : ∀ c ∈ bs, c = 1 ∨ c = m := fun c hc => h1 c (List.mem_cons_of_mem _ hc)
    simp only [join]
    split
    · rename_i h
      refine join_of h1' h2 ?_
      rcases h3 with h3 | h3
      · exact .inl h3
      · rcases List.mem_cons.1 h3 with rfl | h3
        · rcases h with h | h
          · rcases h2 with h2 | h2
            · exact .inl (by omega)
            · exact .inl h2.symm
          · exact .inl h
        · exact .inr h3
    · rename_i h
      rw [if_pos (show m0 = 1 by omega)]
      exact join_of h1' hb (.inl (by omega))

theorem join_error {bs : List Nat} {m0 : Nat} {e : PyErr} : join bs m0 = .error e → e = .indexError := by
  induction bs generalizing m0 with
  | nil => simp [join]
  | cons b bs ih =>
    simp only [join]
    split
    · exact ih
    · split
      · exact ih
      · intro h; exact (Except.error.inj h).symm

theorem within_length : ∀ {s p : List Nat}, Within s p → p.length = s.length
  | [], [], _ => rfl
  | [], _ :: _, h => absurd h (by simp [Within])
  | _ :: _, [], h => absurd h (by simp [Within])
  | _ :: s, _ :: p, h => by simp [within_length h.2]

theorem within_lt : ∀ {s p : List Nat}, Within s p → ∀ i : Nat, ∀ (hs : i < s.length) (hp : i < p.length), p[i] < s[i]
  | [], _, _, _, hs, _ => absurd hs (by simp)
  | _ :: _, [], h, _, _, _ => absurd h (by simp [Within])
  | _ :: _, _ :: _, h, 0, _, _ => h.1
  | _ :: s, _ :: p, h, i + 1, hs, hp => within_lt h.2 i (by simpa using hs) (by simpa using hp)

theorem within_of : ∀ {s p : List Nat}, p.length = s.length →
    (∀ i : Nat, ∀ (hs : i < s.length) (hp : i < p.length), p[i] < s[i]) → Within s p
  | [], [], _, _ => trivial
  | [], _ :: _, h, _ => absurd h (by simp)
  | _ :: _, [], h, _ => absurd h (by simp)
  | _ :: s, _ :: p, h, hl =>
    ⟨hl 0 (by simp) (by simp), within_of (by simpa using h)
      fun i hs hp => hl (i + 1) (by simpa using hs) (by simpa using hp)⟩

theorem address_ok {bs : List Nat} {r : List Nat × (List Nat → List Nat × List Nat)} (h0 : bs ≠ []) (h : address bs = .ok r) :
    ∃ m, join bs 1 = .ok m ∧ r = (bs.dropLast ++ [m], fun p =>
        (bs.map fun b => along b (p.getLastD 0), p.dropLast ++ [along (bs.getLastD 1) (p.getLastD 0)])) := by
  cases bs with
  | nil => exact absurd rfl h0
  | cons b bs =>
    simp only [address] at h
    split at h
    · exact absurd h (by simp)
    · rename_i m hm
      exact ⟨m, hm, (Except.ok.inj h).symm⟩

theorem address_of {bs : List Nat} {m : Nat} (h0 : bs ≠ []) (h : join bs 1 = .ok m) :
    address bs = .ok (bs.dropLast ++ [m], fun p =>
        (bs.map fun b => along b (p.getLastD 0), p.dropLast ++ [along (bs.getLastD 1) (p.getLastD 0)])) := by
  cases bs with
  | nil => exact absurd rfl h0
  | cons b bs =>
    simp only [address]
    rw [h]

theorem getLastD_eq {l : List Nat} (h : l ≠ []) (d : Nat) : l.getLastD d = l.getLast h := by
  cases l with
  | nil => exact absurd rfl h
  | cons a l => simp [List.getLastD_eq_getLast?, List.getLast?_eq_some_getLast h]

theorem dropLast_append {l : List Nat} (h : l ≠ []) (d : Nat) : l.dropLast ++ [l.getLastD d] = l := by
  rw [getLastD_eq h]; exact List.dropLast_concat_getLast h

/-- With leading sizes of 1, the address of `p` is `p`. -/
theorem address_good {bs : List Nat} (h0 : bs ≠ []) (h1 : ∀ b ∈ bs.dropLast, b = 1) :
    ∃ f, address bs = .ok (bs, f) ∧ ∀ p, Within bs p → f p = (p, p) := by
  have hj : join bs 1 = .ok (bs.getLastD 1) := by
    refine join_of ?_ (.inl rfl) ?_
    · intro b hb
      rw [← dropLast_append h0 1] at hb
      rcases List.mem_append.1 hb with hb | hb
      · exact .inl (h1 b hb)
      · exact .inr (by simpa using hb)
    · right; rw [getLastD_eq h0]; exact List.getLast_mem h0
  refine ⟨_, by rw [address_of h0 hj, dropLast_append h0], ?_⟩
  intro p hp
  have hlen := within_length hp
  have hp0 : p ≠ [] := by
    intro h; rw [h] at hlen
    exact h0 (List.length_eq_zero_iff.1 hlen.symm)
  have hpos : 0 < bs.length := List.length_pos_iff.2 h0
  have hlastlt : p.getLastD 0 < bs.getLastD 1 := by
    rw [getLastD_eq hp0, getLastD_eq h0, List.getLast_eq_getElem, List.getLast_eq_getElem]
    have := within_lt hp (bs.length - 1) (by omega) (by omega)
    simpa [hlen] using this
  have hal : along (bs.getLastD 1) (p.getLastD 0) = p.getLastD 0 := by
    unfold along; split <;> omega
  have hmap : (bs.map fun b => along b (p.getLastD 0)) = p := by
    apply List.ext_getElem
    · simp [hlen]
    · intro i hi hi'
      simp only [List.getElem_map]
      have hib : i < bs.length := by simpa using hi
      have hlt := within_lt hp i hib hi'
      by_cases hlast : i = bs.length - 1
      · have e1 : bs[i] = bs.getLastD 1 := by
          rw [getLastD_eq h0, List.getLast_eq_getElem]; simp [hlast]
        have e2 : p[i] = p.getLastD 0 := by
          rw [getLastD_eq hp0, List.getLast_eq_getElem]; simp [hlast, hlen]
        rw [e1, e2, hal]
      · have hb1 : bs[i] = 1 := by
          apply h1
          rw [List.mem_iff_getElem]
          exact ⟨i, by simp; omega, by simp⟩
        rw [hb1] at hlt ⊢
        show (if (1 : Nat) = 1 then 0 else _) = _
        rw [if_pos rfl]; omega
  show (_, _) = _
  rw [hal, dropLast_append hp0, hmap]

/-! ### C155 -/

/-- **C155.** Reading is right for every content and all keys exactly for the batch shapes of at most one dimension, up to leading
dimensions of size 1. -/
theorem C155_reads_iff_partial {α : Type} (bs : List Nat) (x y : α) (hxy : x ≠ y) (hpos : ∀ b ∈ bs, 1 ≤ b) :
    (∀ (data : List Nat → Nat → α) (key : List Nat → Nat), Reads bs data key (get bs data key)) ↔ ∀ b ∈ bs.dropLast, b = 1 := by
  by_cases h0 : bs = []
  · subst h0
    refine ⟨fun _ b hb => by simp at hb, fun _ data key => ⟨_, rfl, rfl, ?_⟩⟩
    intro p hp
    cases p with
    | nil => rfl
    | cons _ _ => exact absurd hp (by simp [Within])
  constructor
  · intro h b hb
    by_contra hb1
    obtain ⟨i, hi, hbi⟩ := List.mem_iff_getElem.1 hb
    have hi' : i < bs.length - 1 := by simpa using hi
    have hbi' : bs[i] = b := by rw [← hbi]; simp
    obtain ⟨t, ht, hshape, hitem⟩ := h (fun q _ => if q[i]? = some 0 then x else y) (fun _ => 0)
    unfold get at ht
    split at ht
    · exact absurd ht (by simp)
    · rename_i shape at_ ha
      have ht := Except.ok.inj ht
      subst ht
      obtain ⟨m, hm, hr⟩ := address_ok h0 ha
      obtain ⟨rfl, rfl⟩ := Prod.mk.inj hr
      obtain ⟨hj1, -, -⟩ := join_ok hm
      have hlast : bs.getLast h0 = m := by
        have h' : bs.dropLast ++ [m] = bs.dropLast ++ [bs.getLast h0] := by
          rw [List.dropLast_concat_getLast]; exact hshape
        simpa using (List.append_cancel_left h').symm
      have hbm : b = m := (hj1 b (List.dropLast_subset _ hb)).resolve_left hb1
      have hb2 : 2 ≤ b := by have := hpos b (List.dropLast_subset _ hb); omega
      -- the position with 1 in its last coordinate and 0 elsewhere
      let p := List.replicate (bs.length - 1) 0 ++ [1]
      have hp : Within bs p := by
        refine within_of (by simp [p]; omega) ?_
        intro j hs hpj
        by_cases hj : j < bs.length - 1
        · have : p[j] = 0 := by
            simp only [p]; rw [List.getElem_append_left (by simpa using hj)]; simp
          rw [this]; have := hpos bs[j] (List.getElem_mem _); omega
        · have hje : j = bs.length - 1 := by omega
          have e1 : p[j] = 1 := by
            simp only [p]; rw [List.getElem_append_right (by simp; omega)]; simp
          have e2 : bs[j] = m := by
            rw [← hlast, List.getLast_eq_getElem]; simp [hje]
          rw [e1, e2]; omega
      have hit := hitem p hp
      have hpl : p.getLastD 0 = 1 := by
        rw [getLastD_eq (by simp [p])]; simp [p]
      have hpi : p[i]? = some 0 := by
        simp only [p]; rw [List.getElem?_append_left (by simpa using hi')]; simp [hi']
      dsimp only at hit
      rw [hpl, if_pos hpi] at hit
      rw [List.getElem?_map, List.getElem?_eq_getElem (show i < bs.length by omega), hbi'] at hit
      have : along b 1 = 1 := by unfold along; rw [if_neg hb1]
      simp only [Option.map_some, this] at hit
      rw [if_neg (by simp)] at hit
      exact hxy hit.symm
  · intro h1 data key
    obtain ⟨f, hf, hid⟩ := address_good h0 h1
    refine ⟨⟨bs, fun p => data (f p).1 (key (f p).2)⟩, ?_, rfl, ?_⟩
    · unfold get; rw [hf]
    · intro p hp; show data (f p).1 (key (f p).2) = _; rw [hid p hp]

example : (∀ b ∈ ([1, 1, 5] : List Nat), 1 ≤ b) ∧ (∀ b ∈ ([1, 1, 5] : List Nat).dropLast, b = 1) := by decide

/-- **C155.** For those batch shapes an unmasked write stores every batch position's own value at its own key, and nothing else. -/
theorem C155_set_partial {α : Type} (bs : List Nat) (h1 : ∀ b ∈ bs.dropLast, b = 1) (data : List Nat → Nat → α) (key : List Nat → Nat)
    (value : List Nat → α) (after : List Nat → Nat → α) (h : SetResult bs data key value after) (p : List Nat) (hp : Within bs p)
    (k : Nat) : after p k = if key p = k then value p else data p k := by
  obtain ⟨shape, f, ha, hall⟩ := h.ok
  have hid : shape = bs ∧ ∀ q, Within bs q → f q = (q, q) := by
    by_cases h0 : bs = []
    · subst h0
      obtain ⟨rfl, rfl⟩ := Prod.mk.inj (Except.ok.inj ha)
      refine ⟨rfl, fun q hq => ?_⟩
      cases q with
      | nil => rfl
      | cons _ _ => exact absurd hq (by simp [Within])
    · obtain ⟨g, hg, hgid⟩ := address_good h0 h1
      rw [hg] at ha
      obtain ⟨rfl, rfl⟩ := Prod.mk.inj (Except.ok.inj ha)
      exact ⟨rfl, hgid⟩
  obtain ⟨rfl, hid⟩ := hid
  rcases hall p k with ⟨q, hq, e1, e2, e3⟩ | ⟨hno, e⟩
  · rw [hid q hq] at e1 e2 e3
    dsimp only at e1 e2 e3
    subst e1
    rw [if_pos e2, e3]
  · rw [e, if_neg]
    intro hk
    exact hno ⟨p, hp, by rw [hid p hp], by rw [hid p hp]; exact hk⟩

/-- A write that meets the hypotheses: batch shape `(1, 2)`. -/
example : SetResult [1, 2] (fun _ _ => (0 : Nat)) (fun _ => 3) (fun p => p.getLastD 0 + 7)
    (fun b k => if k = 3 ∧ b = [0, 0] then 7 else if k = 3 ∧ b = [0, 1] then 8 else 0) := by
  refine ⟨[1, 2], _, rfl, fun b k => ?_⟩
  by_cases hk : k = 3
  · subst hk
    by_cases h0 : b = [0, 0]
    · subst h0; exact .inl ⟨[0, 0], ⟨by omega, by omega, trivial⟩, rfl, rfl, rfl⟩
    · by_cases h2 : b = [0, 1]
      · subst h2; exact .inl ⟨[0, 1], ⟨by omega, by omega, trivial⟩, rfl, rfl, rfl⟩
      · refine .inr ⟨?_, by simp [h0, h2]⟩
        rintro ⟨p, hp, rfl, -⟩
        match p, hp with
        | [i, j], ⟨_, hj, _⟩ =>
          have : j = 0 ∨ j = 1 := by omega
          rcases this with rfl | rfl
          · exact h0 rfl
          · exact h2 rfl
  · refine .inr ⟨?_, by simp [hk]⟩
    rintro ⟨p, _, _, h⟩
    exact hk h.symm

/-- **C155 (violation).** Two batch dimensions of different sizes, both other than 1: every read and every write is an `IndexError`,
whatever the content and the keys. -/
theorem C155_violated_error (bs : List Nat) (a b : Nat) (ha : a ∈ bs) (hb : b ∈ bs) (hab : a ≠ b) (ha1 : a ≠ 1) (hb1 : b ≠ 1) :
    (∀ {α : Type} (data : List Nat → Nat → α) key, get bs data key = .error .indexError) ∧
    (∀ {α : Type} (data : List Nat → Nat → α) key value after, ¬ SetResult bs data key value after) := by
  have h0 : bs ≠ [] := by rintro rfl; simp at ha
  have he : address bs = .error .indexError := by
    cases hj : join bs 1 with
    | ok m =>
      obtain ⟨h1, -, -⟩ := join_ok hj
      have := h1 a ha; have := h1 b hb
      omega
    | error e =>
      have := join_error hj; subst this
      cases bs with
      | nil => exact absurd rfl h0
      | cons c bs => simp only [address]; rw [hj]
  constructor
  · intro α data key; unfold get; rw [he]
  · intro α data key value after h
    obtain ⟨_, _, h, -⟩ := h.ok
    rw [he] at h; exact absurd h (by simp)

example : (2 : Nat) ∈ [2, 3] ∧ 3 ∈ [2, 3] := by decide

/-- **C155 (violation).** Batch shape `(n, n)`: the item at `(i, j)` is read from the batch position `(j, j)`, and what is written cannot
be read back: if the values for two rows of a column differ, no outcome of the write, read with the same keys, gives them both. -/
theorem C155_violated_wrong_item (n : Nat) (hn : 2 ≤ n) :
    (∀ {α : Type} (data : List Nat → Nat → α) key, ∃ t, get [n, n] data key = .ok t ∧ t.shape = [n, n] ∧
      ∀ i j, i < n → j < n → t.item [i, j] = data [j, j] (key [i, j])) ∧
    (∀ {α : Type} (data : List Nat → Nat → α) (k : Nat) (value : List Nat → α) (after : List Nat → Nat → α) (i i' j : Nat),
      i < n → i' < n → j < n → value [i, j] ≠ value [i', j] → SetResult [n, n] data (fun _ => k) value after →
      ∀ t, get [n, n] after (fun _ => k) = .ok t → ¬ (t.item [i, j] = value [i, j] ∧ t.item [i', j] = value [i', j])) := by
  have hj : join [n, n] 1 = .ok n := join_of (by simp) (.inl rfl) (.inr (by simp))
  have ha := address_of (bs := [n, n]) (by simp) hj
  have hget : ∀ {α : Type} (data : List Nat → Nat → α) key, ∃ t, get [n, n] data key = .ok t ∧ t.shape = [n, n] ∧
      ∀ i j, i < n → j < n → t.item [i, j] = data [j, j] (key [i, j]) := by
    intro α data key
    refine ⟨_, by unfold get; rw [ha], rfl, ?_⟩
    intro i j _ _
    have : ∀ t, along n t = t := fun t => by unfold along; rw [if_neg (by omega)]
    simp [this]
  refine ⟨hget, ?_⟩
  intro α data k value after i i' j hi hi' hjn hne _ t ht ⟨e1, e2⟩
  obtain ⟨t', ht', -, hitem⟩ := hget after (fun _ => k)
  rw [ht] at ht'
  have := Except.ok.inj ht'; subst this
  rw [hitem i j hi hjn] at e1
  rw [hitem i' j hi' hjn] at e2
  exact hne (e1.symm.trans e2)

/-- Such a write exists. -/
example : SetResult [2, 2] (fun _ _ => 0) (fun _ => 0) (fun p => 2 * p.headD 0 + p.getLastD 0)
    (fun b k => if k = 0 ∧ b = [0, 0] then 2 else if k = 0 ∧ b = [1, 1] then 3 else 0) := by
  refine ⟨[2, 2], _, rfl, fun b k => ?_⟩
  by_cases hk : k = 0
  · subst hk
    by_cases h0 : b = [0, 0]
    · subst h0; exact .inl ⟨[1, 0], ⟨by omega, by omega, trivial⟩, rfl, rfl, rfl⟩
    · by_cases h2 : b = [1, 1]
      · subst h2; exact .inl ⟨[1, 1], ⟨by omega, by omega, trivial⟩, rfl, rfl, rfl⟩
      · refine .inr ⟨?_, by simp [h0, h2]⟩
        rintro ⟨p, hp, rfl, -⟩
        match p, hp with
        | [i, j], ⟨_, hj, _⟩ =>
          have : j = 0 ∨ j = 1 := by omega
          rcases this with rfl | rfl
          · exact h0 rfl
          · exact h2 rfl
  · refine .inr ⟨?_, by simp [hk]⟩
    rintro ⟨p, _, _, h⟩
    exact hk h.symm

/-- **C155 (violation).** Batch shape `(n, 1)`: reading gives a result of shape `(n, n)`. -/
theorem C155_violated_shape (n : Nat) (hn : 2 ≤ n) {α : Type} (data : List Nat → Nat → α) (key : List Nat → Nat) :
    ∃ t, get [n, 1] data key = .ok t ∧ t.shape = [n, n] ∧ t.shape ≠ [n, 1] := by
  have hj : join [n, 1] 1 = .ok n := join_of (by simp) (.inl rfl) (.inr (by simp))
  have ha := address_of (bs := [n, 1]) (by simp) hj
  refine ⟨_, by unfold get; rw [ha], rfl, ?_⟩
  simp; omega

/-! ### Results that were read -/

/-- **C155.** What was read from a batched memory, and what was read with a default, keeps its value whatever is written afterwards. -/
theorem C155_snapshot_partial {α : Type} (row later : Nat → α) (k : Nat) :
    (∀ bs, bs ≠ [] → (read bs row k).value later = row k) ∧
    (∀ valid dflt, (readDefault valid row k dflt).value later = if valid then row k else dflt) := by
  refine ⟨fun bs h => ?_, fun _ _ => rfl⟩
  unfold read; rw [if_neg h]; rfl

/-- **C155 (violation).** What was read from a memory without a batch changes with every later write to the same key: after any sequence of
writes it is the last value written. -/
theorem C155_violated_snapshot {α : Type} (row : Nat → α) (k : Nat) :
    (read [] row k).value row = row k ∧
    (∀ (writes : List (Nat × α)) (x : α),
      (read [] row k).value (store (writes.foldl (fun r w => store r w.1 w.2) row) k x) = x) := by
  refine ⟨rfl, fun writes x => ?_⟩
  show (store _ k x) k = x
  unfold store; rw [if_pos rfl]

/-- **C155 (violation).** So does an element read from a list without a batch, when it is popped and another one is appended: `a` is
appended to a new list, the last element is read, popped, and `x` is appended. What was read is now `x`. -/
theorem C155_violated_list_snapshot {α : Type} (L : Int) (hL : 2 ≤ L) (junk : Fin 1 → Nat → α) (fallback a x : α) :
    ∃ (c1 c2 c3 : CList.Batch 1 α) (r : Fin 1 → α) (slot : Nat),
      CList.append L (CList.new 1 junk) (fun _ => a) (fun _ => true) = ⟨c1, .ok ()⟩ ∧
      CList.get L c1 (fun _ => -1) = .ok (fun _ => a) ∧ CList.address L (CList.underlyingKey L (c1 0) (-1)) = some slot ∧
      CList.pop L fallback c1 (fun _ => true) = ⟨c2, .ok r⟩ ∧
      CList.append L c2 (fun _ => x) (fun _ => true) = ⟨c3, .ok ()⟩ ∧
      (read [] (c1 0).data slot).value (c1 0).data = a ∧ (read [] (c1 0).data slot).value (c3 0).data = x := by
  have h1 : (0 : Int) % L ≠ L - 1 := by rw [Int.zero_emod]; omega
  have h2 : ((-1 : Int) - -1) % L ≠ L - 1 := by simpa using h1
  have app : ∀ (d : Fin 1 → Nat → α) (v : α), CList.append L (fun i => ⟨-1, -1, d i⟩) (fun _ => v) (fun _ => true) =
      ⟨fun i => ⟨0, 0, fun j => if j = 0 then v else d i j⟩, .ok ()⟩ := by
    intro d v
    simp only [CList.append, CList.set, CList.modify, CList.badKey, CList.badAddress, CList.anyB, CList.moveEndForward, CList.isEmpty,
      CList.isFull, CList.underlyingKey, CList.modUnderlyingKey, CList.isUnderlyingKeyValid, CList.address, CList.writeAt]
    have e0 : ¬ (0 ≥ L) := by omega
    have e1 : 0 < L := by omega
    simp [e0, e1]
    omega
  have e0 : ¬ (0 ≥ L) := by omega
  have e1 : 0 < L := by omega
  refine ⟨fun i => ⟨0, 0, fun j => if j = 0 then a else junk i j⟩, fun i => ⟨-1, -1, fun j => if j = 0 then a else junk i j⟩,
    fun i => ⟨0, 0, fun j => if j = 0 then x else if j = 0 then a else junk i j⟩, fun _ => a, 0,
    app _ a, ?_, ?_, ?_, app _ x, ?_, ?_⟩
  · simp [CList.get, CList.badKey, CList.badAddress, CList.anyB, CList.underlyingKey, CList.modUnderlyingKey,
      CList.isUnderlyingKeyValid, CList.isEmpty, CList.address, CList.readAt, e0, e1]
  · simp [CList.underlyingKey, CList.modUnderlyingKey, CList.address, e0, e1]
  · have hd : CList.getDefault L (fun i => ⟨0, 0, fun j => if j = 0 then a else junk i j⟩) (fun _ => -1) (fun _ => fallback) =
        fun _ : Fin 1 => a := by
      funext i
      simp [CList.getDefault, CList.underlyingKey, CList.modUnderlyingKey, CList.isUnderlyingKeyValid, CList.isEmpty, CList.address,
        CList.readAt, e0, e1]
    simp [CList.pop, hd, CList.anyB, CList.moveEndBackward, CList.hasOne, CList.isEmpty]
  · rfl
  · rfl

/-! ### Keys with a mask -/

/-- **C155.** Without a mask a key is accepted exactly if it is one key, or one key per batch position. With a mask the keys per batch
position are accepted, and one common key for a memory with single keys. -/
theorem C155_keys_partial (bs keyShape given : List Nat) :
    (getKeyShape bs keyShape given false = .ok (bs ++ keyShape) ↔ given = keyShape ∨ given = bs ++ keyShape) ∧
    getKeyShape bs keyShape (bs ++ keyShape) true = .ok (bs ++ keyShape) ∧
    getKeyShape bs [] [] true = .ok bs := by
  refine ⟨?_, ?_, ?_⟩
  · unfold getKeyShape
    by_cases h : given = bs ++ keyShape ∨ given = keyShape
    · rw [if_pos h]
      exact ⟨fun _ => h.symm, fun _ => rfl⟩
    · rw [if_neg h]
      exact ⟨fun e => absurd e (by simp), fun e => absurd e.symm h⟩
  · unfold getKeyShape
    rw [if_pos (.inl rfl), if_pos rfl]
    have : doWhereShape bs (bs ++ keyShape) (bs ++ keyShape) = .ok (bs ++ keyShape) := by
      simp [doWhereShape]
    rw [this]; rfl
  · unfold getKeyShape
    rw [if_pos (.inr rfl), if_pos rfl]
    have : doWhereShape bs [] (bs ++ []) = .ok bs := by
      cases bs <;> simp [doWhereShape]
    rw [this]; simp [bind, Except.bind, pure, Except.pure]

/-- **C155 (violation).** In a batched memory with several key dimensions one common key is accepted without a mask, and refused with
one, even if the mask selects everything. -/
theorem C155_violated_masked_key (bs : List Nat) (d : Nat) (hbs : bs ≠ []) :
    getKeyShape bs [d] [d] false = .ok (bs ++ [d]) ∧ getKeyShape bs [d] [d] true = .error .runtimeError := by
  constructor
  · unfold getKeyShape; rw [if_pos (.inr rfl)]; rfl
  · unfold getKeyShape
    rw [if_pos (.inr rfl), if_pos rfl]
    have : doWhereShape bs [d] (bs ++ [d]) = .error .runtimeError := by
      cases bs with
      | nil => exact absurd rfl hbs
      | cons b bs => simp [doWhereShape]
    rw [this]; rfl

/-- **C155 (violation).** Asking a list, dictionary or bag whether it is batched is an `AttributeError`, for every batch shape. -/
theorem C155_violated_is_batched (cls : String) (h : cls ∈ ["CList", "CDict", "CBag"]) (bs : List Nat) :
    isBatched cls bs = .error .attributeError := by
  simp only [List.mem_cons, List.not_mem_nil, or_false] at h
  rcases h with rfl | rfl | rfl <;> rfl

end EvoTorch.BatchDims
