import Verif.Model.ReadOnlyTensor
import Mathlib.Data.List.Basic
/-! Property C73: read-only tensors cannot be modified in place. -/
namespace EvoTorch.ReadOnly
open EvoTorch
variable {C : Type}

/-! ### Specification -/

/-- A method name with a trailing underscore which is not one of Python's `__special__` names. -/
def TrailingUnderscore (name : List Char) : Prop :=
  (∃ stem, name = stem ++ ['_']) ∧ ¬ ((∃ r, name = ['_', '_'] ++ r) ∧ ∃ r, name = r ++ ['_', '_'])

/-- Python's item assignment and augmented assignment operators. -/
def pythonInPlace : List (List Char) :=
  ["__setitem__", "__iadd__", "__isub__", "__imul__", "__imatmul__", "__itruediv__", "__ifloordiv__", "__imod__", "__ipow__", "__ilshift__", "__irshift__",
    "__iand__", "__ixor__", "__ior__"].map String.toList

/-- Torch's naming convention: a method which modifies its tensor has a trailing underscore or implements one of Python's in-place operators. -/
def TorchConvention (mutates : List Char → Bool) : Prop := ∀ name, mutates name = true → TrailingUnderscore name ∨ name ∈ pythonInPlace

/-- Operations outside the reach of the class: a tuple given as `out`, a tensor made from a numpy array, an explicit cast to `torch.Tensor`. -/
def Loophole : Op C → Prop
  | .outTuple _ _ => True
  | .fromArray _ => True
  | .asPlain _ => True
  | _ => False

/-- All objects which look at storage `a` are read-only. -/
def Sealed (s : State C) (a : ℕ) : Prop := a < s.fresh ∧ ∀ h ∈ s.handles, h.storage = a → h.kind = .readOnly ∨ h.kind = .array false

/-! ### Names -/

theorem blocked_iff (name : List Char) : blocked name = true ↔ TrailingUnderscore name := by
  have hs : ∀ p : List Char, (∃ r, name = r ++ p) ↔ p <:+ name := fun p => ⟨fun ⟨r, h⟩ => ⟨r, h.symm⟩, fun ⟨r, h⟩ => ⟨r, h.symm⟩⟩
  have hp : ∀ p : List Char, (∃ r, name = p ++ r) ↔ p <+: name := fun p => ⟨fun ⟨r, h⟩ => ⟨r, h.symm⟩, fun ⟨r, h⟩ => ⟨r, h.symm⟩⟩
  simp only [TrailingUnderscore, hs, hp, blocked, Bool.and_eq_true, Bool.not_eq_true', List.isSuffixOf_iff_suffix, Bool.and_eq_false_iff]
  rw [← List.isSuffixOf_iff_suffix, ← List.isSuffixOf_iff_suffix, ← List.isPrefixOf_iff_prefix]
  cases ['_'].isSuffixOf name <;> cases ['_', '_'].isPrefixOf name <;> cases ['_', '_'].isSuffixOf name <;> simp

theorem inPlace_refused (name : List Char) (h : name ∈ pythonInPlace) : cannotModify.contains name = true := by
  revert name; decide +kernel

theorem not_mutates {mutates : List Char → Bool} (hc : TorchConvention mutates) {name : List Char} (h1 : blocked name = false)
    (h2 : cannotModify.contains name = false) : mutates name = false := by
  cases hm : mutates name with
  | false => rfl
  | true =>
    rcases hc name hm with h | h
    · rw [(blocked_iff name).2 h] at h1; cases h1
    · rw [inPlace_refused name h] at h2; cases h2

/-! ### Theorems -/

/-- **C73.** On a read-only tensor, each method with a trailing underscore, each in-place operator, item assignment and use as `out=` raises, and nothing at all changes. -/
theorem C73_in_place_refused (mutates : List Char → Bool) (s : State C) (i a : ℕ) (hi : s.handles[i]? = some ⟨a, .readOnly⟩) :
    (∀ name e, TrailingUnderscore name → step mutates s (.method i name e) = ⟨s, .error .attributeError⟩) ∧
    (∀ name e, name ∈ pythonInPlace → step mutates s (.method i name e) = ⟨s, .error .typeError⟩) ∧
    (∀ c, step mutates s (.outOne i c) = ⟨s, .error .typeError⟩) := by
  refine ⟨fun name e h => ?_, fun name e h => ?_, fun c => ?_⟩
  · simp [step, hi, (blocked_iff name).2 h]
  · have hb : blocked name = false := by revert name; decide +kernel
    simp only [step, hi, hb, inPlace_refused name h, if_true, Bool.false_eq_true, if_false]
  · simp [step, hi]

theorem mem_give (s : State C) (shared : Bool) (a : ℕ) (c : C) (k : Kind) (b : ℕ) (h : b < s.fresh) : (s.give shared a c k).mem b = s.mem b := by
  unfold State.give
  split
  · rfl
  · simp only []; rw [if_neg (by omega)]

theorem sealed_give {s : State C} {b : ℕ} (hs : Sealed s b) (shared : Bool) (a : ℕ) (c : C) (k : Kind)
    (hk : shared = true → a = b → k = .readOnly ∨ k = .array false) : Sealed (s.give shared a c k) b := by
  obtain ⟨h1, h2⟩ := hs
  unfold State.give
  split
  · rename_i hsh
    refine ⟨h1, fun h hh hb => ?_⟩
    simp only [List.mem_append, List.mem_singleton] at hh
    rcases hh with hh | rfl
    · exact h2 h hh hb
    · exact hk hsh hb
  · refine ⟨Nat.lt_succ_of_lt h1, fun h hh hb => ?_⟩
    simp only [List.mem_append, List.mem_singleton] at hh
    rcases hh with hh | rfl
    · exact h2 h hh hb
    · simp only at hb; omega

/-- Nothing about storage `b` changes: it stays sealed and keeps its content. -/
def Keeps (s t : State C) (b : ℕ) : Prop := Sealed t b ∧ t.mem b = s.mem b

theorem keeps_give {s t : State C} {b : ℕ} (h : Keeps s t b) (shared : Bool) (a : ℕ) (c : C) (k : Kind)
    (hk : shared = true → a = b → k = .readOnly ∨ k = .array false) : Keeps s (t.give shared a c k) b :=
  ⟨sealed_give h.1 shared a c k hk, by rw [mem_give _ _ _ _ _ _ h.1.1, h.2]⟩

theorem keeps_write {s t : State C} {b : ℕ} (h : Keeps s t b) (a : ℕ) (c : C) (hne : a ≠ b) : Keeps s (t.write a c) b :=
  ⟨⟨h.1.1, h.1.2⟩, by simp only [State.write]; rw [if_neg (Ne.symm hne), h.2]⟩

theorem keeps_step {mutates : List Char → Bool} (hc : TorchConvention mutates) (s : State C) (b : ℕ) (hs : Sealed s b) (op : Op C) (hop : ¬ Loophole op) :
    Keeps s (step mutates s op).state b := by
  have h0 : Keeps s s b := ⟨hs, rfl⟩
  have hmem : ∀ (i : ℕ) (h : Handle), s.handles[i]? = some h → h ∈ s.handles := fun i h hh => List.mem_of_getElem? hh
  have hplain : ∀ (i : ℕ) (h : Handle), s.handles[i]? = some h → (h.kind = .plain ∨ h.kind = .array true) → h.storage ≠ b := by
    intro i h hh hk hb
    rcases hs.2 h (hmem i h hh) hb with h1 | h1 <;> rcases hk with h2 | h2 <;> rw [h1] at h2 <;> cases h2
  cases op with
  | outTuple i c => exact absurd trivial hop
  | fromArray i => exact absurd trivial hop
  | asPlain i => exact absurd trivial hop
  | method i name e =>
    simp only [step]
    split
    · exact h0
    · rename_i h hh
      split
      · exact h0
      · rename_i hk
        have hne := hplain i h hh (.inl hk)
        refine keeps_give ?_ _ _ _ _ fun _ e => absurd e hne
        split
        · exact keeps_write h0 _ _ hne
        · exact h0
      · rename_i hk
        split
        · exact h0
        · rename_i hb
          split
          · exact h0
          · rename_i hcm
            have hm := not_mutates hc (by simpa using hb) (by simpa using hcm)
            simp only [hm, Bool.false_eq_true, if_false]
            refine keeps_give h0 _ _ _ _ fun hsh _ => ?_
            left
            simp [resultKind, hsh]
  | clone i p =>
    simp only [step]
    split
    · exact h0
    · split <;> exact keeps_give h0 _ _ _ _ fun h => by cases h
  | numpy i =>
    simp only [step]
    split
    · exact h0
    · rename_i h hh
      split
      · exact h0
      · rename_i hk
        exact keeps_give h0 _ _ _ _ fun _ e => absurd e (hplain i h hh (.inl hk))
      · exact keeps_give h0 _ _ _ _ fun _ _ => .inr rfl
  | arrayWrite i c =>
    simp only [step]
    split
    · exact h0
    · rename_i h hh
      split
      · rename_i hk
        exact keeps_write h0 _ _ (hplain i h hh (.inr hk))
      · exact h0
  | makeReadOnly i =>
    simp only [step]
    split
    · exact h0
    · exact keeps_give h0 _ _ _ _ fun _ _ => .inl rfl
  | outOne i c =>
    simp only [step]
    split
    · exact h0
    · rename_i h hh
      split
      · exact h0
      · rename_i hk
        exact keeps_write h0 _ _ (hplain i h hh (.inl hk))
      · exact h0

/-- **C73 (partial).** If everything which looks at a storage is read-only, then whatever sequence of operations the user performs on all the objects they have or obtain (without the loopholes), the content of
the storage never changes, and everything which looks at it, including everything derived on the way, is read-only. -/
theorem C73_sealed_partial {mutates : List Char → Bool} (hc : TorchConvention mutates) (a : ℕ) (ops : List (Op C)) (hops : ∀ op ∈ ops, ¬ Loophole op) : ∀ s : State C,
    Sealed s a → Sealed (run mutates s ops) a ∧ (run mutates s ops).mem a = s.mem a := by
  induction ops with
  | nil => intro s hs; exact ⟨hs, rfl⟩
  | cons op ops ih =>
    intro s hs
    have h1 := keeps_step hc s a hs op (hops op (by simp))
    obtain ⟨h2, h3⟩ := ih (fun o ho => hops o (by simp [ho])) _ h1.1
    exact ⟨h2, h3.trans h1.2⟩

/-- **C73.** What is derived from a read-only tensor by any method, `clone`, `numpy`: if it shares the storage it is read-only; a plain tensor has its own storage. -/
theorem C73_derived (mutates : List Char → Bool) (s : State C) (i a : ℕ) (hi : s.handles[i]? = some ⟨a, .readOnly⟩) (hfresh : a < s.fresh) (op : Op C)
    (hop : (∃ name e, op = .method i name e) ∨ (∃ p, op = .clone i p) ∨ op = .numpy i) :
    ∀ h ∈ (step mutates s op).state.handles.drop s.handles.length, h.storage = a → h.kind = .readOnly ∨ h.kind = .array false := by
  have key : ∀ (t : State C) shared c k, t.handles = s.handles → t.fresh = s.fresh → (shared = true → k = .readOnly ∨ k = .array false) →
      ∀ h ∈ (t.give shared a c k).handles.drop s.handles.length, h.storage = a → h.kind = .readOnly ∨ h.kind = .array false := by
    intro t shared c k ht hf hk h hh hst
    unfold State.give at hh
    cases shared with
    | true =>
      simp only [if_true, ht, List.drop_left', List.mem_singleton] at hh
      subst hh; exact hk rfl
    | false =>
      simp only [Bool.false_eq_true, if_false, ht, List.drop_left', List.mem_singleton] at hh
      subst hh; simp only [hf] at hst; omega
  intro h hh hst
  rcases hop with ⟨name, e, rfl⟩ | ⟨p, rfl⟩ | rfl
  · simp only [step, hi] at hh
    split at hh
    · simp at hh
    · split at hh
      · simp at hh
      · refine key _ e.shared e.result _ ?_ ?_ ?_ h hh hst
        · split <;> rfl
        · split <;> rfl
        · intro hsh; left; simp [resultKind, hsh]
  · simp only [step, hi] at hh
    exact key s false _ _ rfl rfl (by simp) h hh hst
  · simp only [step, hi] at hh
    exact key s true _ _ rfl rfl (fun _ => .inr rfl) h hh hst

/-- **C73.** `clone` of a read-only tensor is a plain tensor with the same content and a storage of its own, which can be modified without affecting the original; with `preserve_read_only` (and for
`copy`, `deepcopy`) it is read-only. -/
theorem C73_clone (mutates : List Char → Bool) (s : State C) (i a : ℕ) (hi : s.handles[i]? = some ⟨a, .readOnly⟩) (hfresh : a < s.fresh) (preserve : Bool) :
    let t := (step mutates s (.clone i preserve)).state
    t.handles = s.handles ++ [⟨s.fresh, if preserve then .readOnly else .plain⟩] ∧ t.mem s.fresh = s.mem a ∧ t.mem a = s.mem a ∧ s.fresh ≠ a := by
  simp only [step, hi, State.give, Bool.false_eq_true, if_false, if_true, true_and]
  exact ⟨if_neg (by omega), by omega⟩

/-- A convention-abiding torch, and a state with one storage seen by one read-only tensor. -/
def torchMutates (name : List Char) : Bool := name == "add_".toList || name == "__iadd__".toList
def demo : State ℕ := ⟨fun _ => 7, 1, [⟨0, .readOnly⟩]⟩

example : TorchConvention torchMutates := by
  intro name h
  simp only [torchMutates, Bool.or_eq_true, beq_iff_eq] at h
  rcases h with rfl | rfl
  · left; rw [← blocked_iff]; decide
  · right; decide
example : Sealed demo 0 := ⟨by decide, by intro h hh _; simp [demo] at hh; subst hh; left; rfl⟩
example : demo.handles[0]? = some ⟨0, .readOnly⟩ := rfl

/-! ### Where the full property fails -/

/-- **C73 violated.** A read-only tensor inside a tuple given as `out=` is overwritten. -/
theorem C73_violated_out_tuple (mutates : List Char → Bool) :
    (step mutates demo (.outTuple 0 8)).result = .ok () ∧ (step mutates demo (.outTuple 0 8)).state.mem 0 = 8 := ⟨rfl, rfl⟩

/-- **C73 violated.** A tensor made from the (non-writeable) numpy view of a read-only tensor is a plain tensor on the same storage, so that it can be modified. -/
theorem C73_violated_through_numpy :
    (run torchMutates demo [.numpy 0, .fromArray 1, .method 2 "add_".toList ⟨8, true, 8⟩]).mem 0 = 8 := by rfl

/-- **C73 violated.** So is an explicit cast to the base class. -/
theorem C73_violated_cast : (run torchMutates demo [.asPlain 0, .method 1 "add_".toList ⟨8, true, 8⟩]).mem 0 = 8 := by rfl

end EvoTorch.ReadOnly
