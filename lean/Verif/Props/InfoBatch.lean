import Verif.Model.InfoBatch
import Mathlib.Tactic.ByContra
/-!
C129: the info dictionaries of the sub-environments become one dictionary.
-/
namespace EvoTorch.InfoBatch
open EvoTorch
open EvoTorch.Hook (Dict dictGet)

variable {κ C : Type} [DecidableEq κ]

/-! ### Specification -/

/-- Every sub-environment reports `k`, with numbers or arrays of one common shape. -/
def Uniform (infos : List (Dict κ (Val C))) (k : κ) : Prop :=
  ∃ sh : List Nat, ∀ d ∈ infos, ∃ v, dictGet d k = some v ∧ shapeOf v = some sh

/-! ### Helpers -/

theorem mem_keys_iff (d : Dict κ (Val C)) (k : κ) : k ∈ d.map (·.1) ↔ (dictGet d k).isSome := by
  induction d with
  | nil => simp [dictGet]
  | cons p d ih =>
    by_cases h : p.1 = k
    · simp [dictGet, h]
    · have : dictGet (p :: d) k = dictGet d k := by simp [dictGet, h]
      rw [this, ← ih]
      simp [Ne.symm h]

theorem mem_allKeys (infos : List (Dict κ (Val C))) (k : κ) : k ∈ allKeys infos ↔ ∃ d ∈ infos, (dictGet d k).isSome := by
  unfold allKeys
  rw [List.mem_eraseDups, List.mem_flatMap]
  constructor
  · rintro ⟨d, hd, hk⟩
    exact ⟨d, hd, (mem_keys_iff d k).1 hk⟩
  · rintro ⟨d, hd, hk⟩
    exact ⟨d, hd, (mem_keys_iff d k).2 hk⟩

theorem fold_combined (rest : List (Dict κ (Val C))) (k : κ) : ∀ a : Acc κ C,
    (rest.foldl addEntry a).combined k = a.combined k ++ rest.map (fun d => dictGet d k) := by
  induction rest with
  | nil => intro a; simp
  | cons d rest ih => intro a; rw [List.foldl_cons, ih]; simp [addEntry]

theorem fold_single (rest : List (Dict κ (Val C))) : ∀ a : Acc κ C, (rest.foldl addEntry a).single = a.single := by
  induction rest with
  | nil => intro a; rfl
  | cons d rest ih => intro a; rw [List.foldl_cons, ih]; rfl

theorem addEntry_stackable (a : Acc κ C) (d : Dict κ (Val C)) (k : κ) :
    (addEntry a d).stackable k = true ↔ a.stackable k = true ∧ ∃ v, dictGet d k = some v ∧ (∃ s, shapeOf v = some s) ∧ shapeOf v = a.single k := by
  unfold addEntry
  cases hd : dictGet d k with
  | none => simp [hd]
  | some v =>
    cases v with
    | array sh c =>
      by_cases h : some sh = a.single k
      · rw [← h]; simp [hd, isNumeric, shapeOf, ← h]
      · simp [hd, isNumeric, shapeOf, h]
    | number c =>
      by_cases h : some [] = a.single k
      · rw [← h]; simp [hd, isNumeric, shapeOf, ← h]
      · simp [hd, isNumeric, shapeOf, h]
    | object c => simp [hd, isNumeric, shapeOf]

theorem fold_stackable (rest : List (Dict κ (Val C))) (k : κ) : ∀ a : Acc κ C,
    (rest.foldl addEntry a).stackable k = true ↔
      a.stackable k = true ∧ ∀ d ∈ rest, ∃ v, dictGet d k = some v ∧ (∃ s, shapeOf v = some s) ∧ shapeOf v = a.single k := by
  induction rest with
  | nil => intro a; simp
  | cons d rest ih =>
    intro a
    rw [List.foldl_cons, ih, addEntry_stackable]
    have hs : (addEntry a d).single = a.single := rfl
    rw [hs]
    constructor
    · rintro ⟨⟨h1, h2⟩, h3⟩
      refine ⟨h1, ?_⟩
      intro d' hd'
      rcases List.mem_cons.1 hd' with h | h
      · rw [h]; exact h2
      · exact h3 d' h
    · rintro ⟨h1, h2⟩
      exact ⟨⟨h1, h2 d (by simp)⟩, fun d' hd' => h2 d' (by simp [hd'])⟩

theorem first_stackable (d : Dict κ (Val C)) (k : κ) :
    (addEntry (firstEntry Acc.start d) d).stackable k = true ↔ ∃ v s, dictGet d k = some v ∧ shapeOf v = some s := by
  rw [addEntry_stackable]
  constructor
  · rintro ⟨_, v, hv, ⟨s, hs⟩, _⟩
    exact ⟨v, s, hv, hs⟩
  · rintro ⟨v, s, hv, hs⟩
    refine ⟨?_, v, hv, ⟨s, hs⟩, ?_⟩
    · simp [firstEntry, hv, hs, Acc.start]
    · simp [firstEntry, hv, hs]

theorem loop_combined (infos : List (Dict κ (Val C))) (k : κ) : (loop infos).combined k = infos.map fun d => dictGet d k := by
  cases infos with
  | nil => rfl
  | cons d rest =>
    simp only [loop]
    rw [fold_combined]
    simp [addEntry, firstEntry, Acc.start]

theorem loop_stackable (d : Dict κ (Val C)) (rest : List (Dict κ (Val C))) (k : κ) :
    (loop (d :: rest)).stackable k = true ↔ Uniform (d :: rest) k := by
  simp only [loop]
  rw [fold_stackable, first_stackable]
  constructor
  · rintro ⟨⟨v, s, hv, hs⟩, h⟩
    refine ⟨s, ?_⟩
    intro d' hd'
    rcases List.mem_cons.1 hd' with h' | h'
    · rw [h']; exact ⟨v, hv, hs⟩
    · obtain ⟨w, hw, _, hsw⟩ := h d' h'
      refine ⟨w, hw, ?_⟩
      rw [hsw]
      simp [addEntry, firstEntry, hv, hs]
  · rintro ⟨s, h⟩
    obtain ⟨v, hv, hs⟩ := h d (by simp)
    refine ⟨⟨v, s, hv, hs⟩, ?_⟩
    intro d' hd'
    obtain ⟨w, hw, hsw⟩ := h d' (by simp [hd'])
    refine ⟨w, hw, ⟨s, hsw⟩, ?_⟩
    rw [hsw]
    simp [addEntry, firstEntry, hv, hs]

theorem mapM_id_map_some {α : Type} (l : List α) : (l.map some).mapM id = some l := by
  induction l with
  | nil => rfl
  | cons a l ih => simp [List.mapM_cons, ih]

/-- The values of a uniform key, one per sub-environment. -/
theorem uniform_values (infos : List (Dict κ (Val C))) (k : κ) (h : Uniform infos k) :
    ∃ (sh : List Nat) (vals : List (Val C)), infos.map (fun d => dictGet d k) = vals.map some ∧ ∀ v ∈ vals, shapeOf v = some sh := by
  obtain ⟨sh, h⟩ := h
  refine ⟨sh, ?_⟩
  induction infos with
  | nil => exact ⟨[], rfl, by simp⟩
  | cons d rest ih =>
    obtain ⟨v, hv, hs⟩ := h d (by simp)
    obtain ⟨vals, h1, h2⟩ := ih (fun d' hd' => h d' (by simp [hd']))
    refine ⟨v :: vals, by simp [hv, h1], ?_⟩
    intro w hw
    rcases List.mem_cons.1 hw with h' | h'
    · rw [h']; exact hs
    · exact h2 w h'

theorem entry_uniform (infos : List (Dict κ (Val C))) (k : κ) (hne : infos ≠ []) (h : Uniform infos k) :
    ∃ vals, entryOf (loop infos) k = .ok (.stacked vals) ∧ infos.map (fun d => dictGet d k) = vals.map some := by
  obtain ⟨sh, vals, hv, hs⟩ := uniform_values infos k h
  obtain ⟨d, rest, rfl⟩ : ∃ d rest, infos = d :: rest := by
    cases infos with
    | nil => exact absurd rfl hne
    | cons d rest => exact ⟨d, rest, rfl⟩
  refine ⟨vals, ?_, hv⟩
  unfold entryOf
  rw [if_pos ((loop_stackable d rest k).2 h), loop_combined, hv]
  unfold npStack
  rw [mapM_id_map_some]
  cases vals with
  | nil => simp at hv
  | cons v vs =>
    have : ∀ w ∈ vs, shapeOf w = shapeOf v := by
      intro w hw
      rw [hs w (by simp [hw]), hs v (by simp)]
    simp only [if_pos this]

theorem entry_not_uniform (infos : List (Dict κ (Val C))) (k : κ) (hne : infos ≠ []) (h : ¬ Uniform infos k) :
    entryOf (loop infos) k = .ok (.listed (infos.map fun d => dictGet d k)) := by
  obtain ⟨d, rest, rfl⟩ : ∃ d rest, infos = d :: rest := by
    cases infos with
    | nil => exact absurd rfl hne
    | cons d rest => exact ⟨d, rest, rfl⟩
  unfold entryOf
  rw [if_neg (fun hc => h ((loop_stackable d rest k).1 hc)), loop_combined]

theorem entries_ok (a : Acc κ C) (ks : List κ) (h : ∀ k ∈ ks, ∃ e, entryOf a k = .ok e) :
    ∃ out, entries a ks = .ok out ∧ (∀ k, k ∉ ks → dictGet out k = none) ∧ (∀ k ∈ ks, (dictGet out k).map Except.ok = some (entryOf a k)) := by
  induction ks with
  | nil => exact ⟨[], rfl, by simp [dictGet], by simp⟩
  | cons k ks ih =>
    obtain ⟨e, he⟩ := h k (by simp)
    obtain ⟨out, h1, h2, h3⟩ := ih (fun k' hk' => h k' (by simp [hk']))
    refine ⟨(k, e) :: out, by simp [entries, he, h1, Except.bind], ?_, ?_⟩
    · intro k' hk'
      have hne : k ≠ k' := by
        intro hc; exact hk' (by simp [hc])
      have hn : k' ∉ ks := by
        intro hc; exact hk' (by simp [hc])
      have : dictGet ((k, e) :: out) k' = dictGet out k' := by simp [dictGet, hne]
      rw [this, h2 k' hn]
    · intro k' hk'
      by_cases hc : k = k'
      · subst hc
        simp [dictGet, he]
      · have hn : k' ∈ ks := by
          rcases List.mem_cons.1 hk' with h' | h'
          · exact absurd h'.symm hc
          · exact h'
        have : dictGet ((k, e) :: out) k' = dictGet out k' := by simp [dictGet, hc]
        rw [this, h3 k' hn]

theorem allKeys_ne_nil (infos : List (Dict κ (Val C))) (k : κ) (h : k ∈ allKeys infos) : infos ≠ [] := by
  rintro rfl
  simp [allKeys] at h

/-! ### Theorems -/

/-- Combining the dictionaries never raises, whatever the sub-environments report. -/
theorem C129_total (infos : List (Dict κ (Val C))) : ∃ out, batchInfos infos = .ok out := by
  obtain ⟨out, h, _⟩ := entries_ok (loop infos) (allKeys infos) (by
    intro k hk
    have hne := allKeys_ne_nil infos k hk
    by_cases hu : Uniform infos k
    · obtain ⟨vals, h, _⟩ := entry_uniform infos k hne hu
      exact ⟨_, h⟩
    · exact ⟨_, entry_not_uniform infos k hne hu⟩)
  exact ⟨out, h⟩

/-- What stands under a key of the combined dictionary: nothing when no sub-environment reported it; one array whose i-th row is the value of the i-th sub-environment when all of them reported
numbers or arrays of the same shape; otherwise a list with one element per sub-environment, in order, `None` for those that did not report it. -/
theorem C129_entries (infos : List (Dict κ (Val C))) (out : Dict κ (Entry C)) (h : batchInfos infos = .ok out) (k : κ) :
    ((∀ d ∈ infos, dictGet d k = none) → dictGet out k = none) ∧
    ((∃ d ∈ infos, dictGet d k ≠ none) → Uniform infos k →
      ∃ vals, dictGet out k = some (.stacked vals) ∧ infos.map (fun d => dictGet d k) = vals.map some) ∧
    ((∃ d ∈ infos, dictGet d k ≠ none) → ¬ Uniform infos k → dictGet out k = some (.listed (infos.map fun d => dictGet d k))) := by
  obtain ⟨out', h1, h2, h3⟩ := entries_ok (loop infos) (allKeys infos) (by
    intro k hk
    have hne := allKeys_ne_nil infos k hk
    by_cases hu : Uniform infos k
    · obtain ⟨vals, h, _⟩ := entry_uniform infos k hne hu
      exact ⟨_, h⟩
    · exact ⟨_, entry_not_uniform infos k hne hu⟩)
  have : out = out' := by
    unfold batchInfos at h
    rw [h] at h1
    exact Except.ok.inj h1
  subst this
  refine ⟨?_, ?_, ?_⟩
  · intro hn
    apply h2
    rw [mem_allKeys]
    rintro ⟨d, hd, hs⟩
    rw [hn d hd] at hs
    cases hs
  · rintro ⟨d, hd, hs⟩ hu
    have hk : k ∈ allKeys infos := (mem_allKeys infos k).2 ⟨d, hd, by
      cases hg : dictGet d k with
      | none => exact absurd hg hs
      | some v => rfl⟩
    obtain ⟨vals, he, hv⟩ := entry_uniform infos k (allKeys_ne_nil infos k hk) hu
    refine ⟨vals, ?_, hv⟩
    have := h3 k hk
    rw [he] at this
    cases hg : dictGet out k with
    | none => rw [hg] at this; simp at this
    | some e => rw [hg] at this; simp at this; rw [this]
  · rintro ⟨d, hd, hs⟩ hu
    have hk : k ∈ allKeys infos := (mem_allKeys infos k).2 ⟨d, hd, by
      cases hg : dictGet d k with
      | none => exact absurd hg hs
      | some v => rfl⟩
    have he := entry_not_uniform infos k (allKeys_ne_nil infos k hk) hu
    have := h3 k hk
    rw [he] at this
    cases hg : dictGet out k with
    | none => rw [hg] at this; simp at this
    | some e => rw [hg] at this; simp at this; rw [this]

/-- With two sub-environments: `a` is stacked, `b` has different shapes, `c` is missing in the second one. -/
example : batchInfos (κ := String) (C := Nat)
    [[("a", .number 1), ("b", .array [2] 5), ("c", .number 7)], [("b", .array [3] 6), ("a", .number 2)]] =
    .ok [("a", .stacked [.number 1, .number 2]), ("b", .listed [some (.array [2] 5), some (.array [3] 6)]), ("c", .listed [some (.number 7), none])] := by
  rfl

/-- Every list in the combined dictionary and every array has exactly one element per sub-environment. -/
theorem C129_lengths (infos : List (Dict κ (Val C))) (out : Dict κ (Entry C)) (h : batchInfos infos = .ok out) (k : κ) (e : Entry C)
    (he : dictGet out k = some e) :
    (∃ vals, e = .stacked vals ∧ vals.length = infos.length) ∨ (∃ vals, e = .listed vals ∧ vals.length = infos.length) := by
  obtain ⟨h1, h2, h3⟩ := C129_entries infos out h k
  by_cases hn : ∀ d ∈ infos, dictGet d k = none
  · rw [h1 hn] at he; cases he
  · have hex : ∃ d ∈ infos, dictGet d k ≠ none := by
      by_contra hc
      apply hn
      intro d hd
      by_contra hd'
      exact hc ⟨d, hd, hd'⟩
    by_cases hu : Uniform infos k
    · obtain ⟨vals, h4, h5⟩ := h2 hex hu
      rw [h4] at he
      have hl := congrArg List.length h5
      simp only [List.length_map] at hl
      exact Or.inl ⟨vals, (Option.some.inj he).symm, hl.symm⟩
    · have h4 := h3 hex hu
      rw [h4] at he
      exact Or.inr ⟨_, (Option.some.inj he).symm, by simp⟩

example : ∃ out, batchInfos (κ := String) (C := Nat) [[("a", .number 1)], []] = .ok out ∧ dictGet out "a" = some (.listed [some (.number 1), none]) := ⟨_, rfl, rfl⟩

/-- With `empty_info=True` nothing is reported; without a target device the combined dictionary is reported as it is; with one, exactly the arrays are moved. -/
theorem C129_reported (device : Bool) (infos : List (Dict κ (Val C))) :
    reportedInfo true device infos = .ok [] ∧
    ∃ out, batchInfos infos = .ok out ∧
      reportedInfo false false infos = .ok (out.map fun p => (p.1, .asIs p.2)) ∧
      ∃ moved, reportedInfo false true infos = .ok moved ∧ moved.map (·.1) = out.map (·.1) ∧
        ∀ p ∈ moved, (∃ vals, (p.1, Entry.stacked vals) ∈ out ∧ p.2 = .onDevice vals) ∨ (∃ vals, (p.1, Entry.listed vals) ∈ out ∧ p.2 = .asIs (.listed vals)) := by
  refine ⟨rfl, ?_⟩
  obtain ⟨out, h⟩ := C129_total infos
  refine ⟨out, h, ?_, out.map fun p => (p.1, moveEntry true p.2), ?_, ?_, ?_⟩
  · simp only [reportedInfo, h, Except.map, Bool.false_eq_true, if_false]
    congr 1
    apply List.map_congr_left
    rintro ⟨k, e⟩ _
    cases e <;> rfl
  · simp only [reportedInfo, h, Except.map]
    rfl
  · simp
  · rintro p hp
    obtain ⟨⟨k, e⟩, hq, rfl⟩ := List.mem_map.1 hp
    cases e with
    | stacked vals => exact Or.inl ⟨vals, hq, rfl⟩
    | listed vals => exact Or.inr ⟨vals, hq, rfl⟩

/-- The documentation promises info arrays on the target device. When the sub-environments report arrays of different shapes, or only some report one, the arrays stay where they are, in a list. -/
theorem C129_violated_device (k : κ) (c c' : C) (n m : Nat) (h : n ≠ m) :
    reportedInfo false true [[(k, .array [n] c)], [(k, .array [m] c')]] = .ok [(k, .asIs (.listed [some (.array [n] c), some (.array [m] c')]))] := by
  have h' : m ≠ n := Ne.symm h
  simp [reportedInfo, batchInfos, allKeys, List.eraseDups_cons, entries, entryOf, loop, addEntry, firstEntry, Acc.start, dictGet, shapeOf, isNumeric, h', Except.map, Except.bind, moveEntry]

end EvoTorch.InfoBatch
