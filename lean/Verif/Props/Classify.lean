import Verif.Model.Classify
/-!
C131: dtypes and values are classified consistently.
-/
namespace EvoTorch.Classify
open EvoTorch

variable (N : Names)

/-! ### Specification -/

/-- Whole numbers other than bools: Python and numpy scalars, and tensors and arrays without dimensions. -/
inductive IsWhole : Val → Prop where
  | scalar : IsWhole .integral
  | tensor (t : TorchDT) (h : t ∈ [.uint8, .int8, .int16, .int32, .int64]) : IsWhole (.tensor t 0)
  | array (d : NpDT) (h : d ∈ [.uint8, .int8, .int16, .int32, .int64]) : IsWhole (.array d 0)

/-- Fractional numbers: likewise. -/
inductive IsFractional : Val → Prop where
  | scalar : IsFractional .realNum
  | tensor (t : TorchDT) (h : t ∈ [.float16, .float32, .float64]) : IsFractional (.tensor t 0)
  | array (d : NpDT) (h : d ∈ [.float16, .float32, .float64]) : IsFractional (.array d 0)

/-- Bools: likewise. -/
inductive IsTruth : Val → Prop where
  | python : IsTruth .pyBool
  | numpy : IsTruth .npBool
  | tensor : IsTruth (.tensor .bool 0)
  | array : IsTruth (.array .bool 0)

/-- A scalar tensor of the one dtype without a counterpart in numpy. -/
def BF : Val := .tensor .bfloat16 0

/-! ### dtypes -/

/-- The dtypes of both libraries are translated into each other without loss: for every dtype of PyTorch but bfloat16, and for every dtype of numpy that PyTorch accepts. -/
theorem C131_round_trip :
    (∀ t, t ≠ .bfloat16 → ∃ d, toNumpy N (.torch t) = .ok d ∧ toTorch N (.numpy d) = .ok t) ∧
    (∀ d t, toTorch N (.numpy d) = .ok t → toNumpy N (.torch t) = .ok d) ∧
    (∀ t, toTorch N (.torch t) = .ok t) ∧ (∀ d, toNumpy N (.numpy d) = .ok d) := by
  refine ⟨?_, ?_, fun _ => rfl, ?_⟩
  · intro t ht
    cases t <;> first | exact absurd rfl ht | exact ⟨_, rfl, rfl⟩
  · intro d t h
    cases d <;> cases h <;> rfl
  · intro d; rfl

/-- Names: a name that PyTorch knows means that dtype; another one goes through numpy, and is refused if numpy does not know it or has no counterpart for it. -/
theorem C131_names (s : String) :
    (∀ t, N.torch s = some t → toTorch N (.name s) = .ok t) ∧
    (N.torch s = none → ∀ d, N.numpy s = some d → toTorch N (.name s) = toTorch N (.numpy d)) ∧
    (N.torch s = none → N.numpy s = none → toTorch N (.name s) = .error .typeError) ∧
    (s ∉ ["object", "Any", "O"] → ∀ d, N.numpy s = some d → toNumpy N (.name s) = .ok d) ∧
    (s ∉ ["object", "Any", "O"] → N.numpy s = none → toNumpy N (.name s) = .error .typeError) := by
  refine ⟨?_, ?_, ?_, ?_, ?_⟩
  · intro t h; simp [toTorch, h]
  · intro h d hd; simp [toTorch, h, torchNamed, npNamed, hd, Except.bind]
  · intro h hd; simp [toTorch, h, torchNamed, npNamed, hd, Except.bind]
  · intro hs d hd
    have : isDtypeObject (.name s) = false := by
      simp [isDtypeObject] at hs ⊢; exact ⟨⟨hs.1, hs.2.1⟩, hs.2.2⟩
    simp [toNumpy, this, npNamed, hd]
  · intro hs hd
    have : isDtypeObject (.name s) = false := by
      simp [isDtypeObject] at hs ⊢; exact ⟨⟨hs.1, hs.2.1⟩, hs.2.2⟩
    simp [toNumpy, this, npNamed, hd]

/-- The object dtype is recognised in each of its forms, has no PyTorch counterpart as a type, and is translated to numpy's object dtype. -/
theorem C131_object (t : DT) :
    (isDtypeObject t = true ↔ t ∈ [.objectType, .anyType, .name "object", .name "Any", .name "O"]) ∧
    (isDtypeObject t = true → toNumpy N t = .ok .object) ∧
    toTorch N .objectType = .error .typeError ∧ toTorch N .anyType = .error .typeError := by
  refine ⟨?_, ?_, rfl, rfl⟩
  · cases t <;> simp [isDtypeObject, or_assoc]
  · intro h
    cases t <;> simp_all [isDtypeObject, toNumpy]

/-- `np.dtype(object)` is not recognised as an object dtype, unlike everything that `to_numpy_dtype` turns into it. -/
theorem C131_violated_object : toNumpy N .objectType = .ok .object ∧ isDtypeObject .objectType = true ∧ isDtypeObject (.numpy .object) = false := ⟨rfl, rfl, rfl⟩

/-- Which dtypes are bool, integer, float and real. -/
theorem C131_dtypes (t : TorchDT) (h : t ≠ .bfloat16) :
    isDtypeBool N (.torch t) = .ok (decide (t = .bool)) ∧
    isDtypeInteger N (.torch t) = .ok (decide (t ∈ [.uint8, .int8, .int16, .int32, .int64])) ∧
    isDtypeFloat N (.torch t) = .ok (decide (t ∈ [.float16, .float32, .float64])) ∧
    isDtypeReal N (.torch t) = .ok (decide (t ∈ [.uint8, .int8, .int16, .int32, .int64, .float16, .float32, .float64])) := by
  cases t <;> first | exact absurd rfl h | exact ⟨rfl, rfl, rfl, rfl⟩

example : (TorchDT.float32) ≠ .bfloat16 := by decide

/-- The same for numpy. -/
theorem C131_numpy_dtypes (d : NpDT) :
    isDtypeBool N (.numpy d) = .ok (decide (d = .bool)) ∧
    isDtypeInteger N (.numpy d) = .ok (decide (d ∈ [.uint8, .int8, .int16, .int32, .int64])) ∧
    isDtypeFloat N (.numpy d) = .ok (decide (d ∈ [.float16, .float32, .float64])) ∧
    isDtypeReal N (.numpy d) = .ok (decide (d ∈ [.uint8, .int8, .int16, .int32, .int64, .float16, .float32, .float64])) := by
  cases d <;> exact ⟨rfl, rfl, rfl, rfl⟩

/-- bfloat16 is a float dtype of PyTorch, and asking for its class raises TypeError, for the dtype as well as for its scalars and vectors. -/
theorem C131_violated_bfloat16 :
    isDtypeFloat N (.torch .bfloat16) = .error .typeError ∧ isDtypeInteger N (.torch .bfloat16) = .error .typeError ∧ isDtypeBool N (.torch .bfloat16) = .error .typeError ∧
    isReal N (.tensor .bfloat16 0) = .error .typeError ∧ isInteger N (.tensor .bfloat16 0) = .error .typeError ∧ isBool N (.tensor .bfloat16 0) = .error .typeError ∧
    isRealVector N (.tensor .bfloat16 1) = .error .typeError := ⟨rfl, rfl, rfl, rfl, rfl, rfl, rfl⟩

/-! ### Scalars -/

theorem isBool_spec (v : Val) (h : v ≠ BF) : ∃ b, isBool N v = .ok b ∧ (b = true ↔ IsTruth v) := by
  cases v with
  | pyBool => exact ⟨true, rfl, by simp [IsTruth.python]⟩
  | npBool => exact ⟨true, rfl, by simp [IsTruth.numpy]⟩
  | integral => exact ⟨false, rfl, by simp; intro h; cases h⟩
  | realNum => exact ⟨false, rfl, by simp; intro h; cases h⟩
  | number => exact ⟨false, rfl, by simp; intro h; cases h⟩
  | str n => exact ⟨false, rfl, by simp; intro h; cases h⟩
  | bytes n => exact ⟨false, rfl, by simp; intro h; cases h⟩
  | iterable l => exact ⟨false, rfl, by simp; intro h; cases h⟩
  | other => exact ⟨false, rfl, by simp; intro h; cases h⟩
  | tensor t n =>
    cases n with
    | succ n => exact ⟨false, by simp [isBool], by simp; intro h; cases h⟩
    | zero =>
      by_cases ht : t = .bfloat16
      · subst ht; exact absurd rfl h
      · refine ⟨_, by simp [isBool]; exact (C131_dtypes N t ht).1, ?_⟩
        constructor
        · intro hb; have := of_decide_eq_true hb; subst this; exact .tensor
        · intro hb; cases hb; rfl
  | array d n =>
    cases n with
    | succ n => exact ⟨false, by simp [isBool], by simp; intro h; cases h⟩
    | zero =>
      refine ⟨_, by simp [isBool]; exact (C131_numpy_dtypes N d).1, ?_⟩
      constructor
      · intro hb; have := of_decide_eq_true hb; subst this; exact .array
      · intro hb; cases hb; rfl

/-- Every value except a bfloat16 scalar is classified, and as documented: bools are neither integers nor reals; integers are the whole numbers; reals are the whole and the fractional numbers. -/
theorem C131_scalars (v : Val) (h : v ≠ BF) :
    ∃ b i r, isBool N v = .ok b ∧ isInteger N v = .ok i ∧ isReal N v = .ok r ∧
      (b = true ↔ IsTruth v) ∧ (i = true ↔ IsWhole v) ∧ (r = true ↔ IsWhole v ∨ IsFractional v) ∧
      (i = true → r = true) ∧ (b = true → i = false ∧ r = false) := by
  obtain ⟨b, hb, hb'⟩ := isBool_spec N v h
  have key : ∃ i r, isInteger N v = .ok i ∧ isReal N v = .ok r ∧ (i = true ↔ IsWhole v) ∧ (r = true ↔ IsWhole v ∨ IsFractional v) := by
    cases v with
    | pyBool => exact ⟨false, false, rfl, rfl, (by simp; intro h; cases h), by simp; constructor <;> (intro h; cases h)⟩
    | npBool => exact ⟨false, false, rfl, rfl, (by simp; intro h; cases h), by simp; constructor <;> (intro h; cases h)⟩
    | integral => exact ⟨true, true, rfl, rfl, by simp [IsWhole.scalar], by simp [IsWhole.scalar]⟩
    | realNum => exact ⟨false, true, rfl, rfl, (by simp; intro h; cases h), by simp [IsFractional.scalar]⟩
    | number => exact ⟨false, false, rfl, rfl, (by simp; intro h; cases h), by simp; constructor <;> (intro h; cases h)⟩
    | str n => exact ⟨false, false, rfl, rfl, (by simp; intro h; cases h), by simp; constructor <;> (intro h; cases h)⟩
    | bytes n => exact ⟨false, false, rfl, rfl, (by simp; intro h; cases h), by simp; constructor <;> (intro h; cases h)⟩
    | iterable l => exact ⟨false, false, rfl, rfl, (by simp; intro h; cases h), by simp; constructor <;> (intro h; cases h)⟩
    | other => exact ⟨false, false, rfl, rfl, (by simp; intro h; cases h), by simp; constructor <;> (intro h; cases h)⟩
    | tensor t n =>
      cases n with
      | succ n => exact ⟨false, false, by simp [isInteger, isBool, isInteger', Except.bind], by simp [isReal, isBool, isReal', Except.bind],
          (by simp; intro h; cases h), by simp; constructor <;> (intro h; cases h)⟩
      | zero =>
        cases t
        case bfloat16 => exact absurd rfl h
        all_goals refine ⟨_, _, rfl, rfl, ?_, ?_⟩
        all_goals first
          | (constructor
             · intro hd; first | exact .tensor _ (by decide) | cases hd
             · intro hw; first | rfl | (cases hw; rename_i hw; revert hw; decide))
          | (constructor
             · intro hd; first | exact Or.inl (.tensor _ (by decide)) | exact Or.inr (.tensor _ (by decide)) | cases hd
             · intro hw; first | rfl | (rcases hw with hw | hw <;> (cases hw; rename_i hw; revert hw; decide)))
    | array d n =>
      cases n with
      | succ n => exact ⟨false, false, by simp [isInteger, isBool, isInteger', Except.bind], by simp [isReal, isBool, isReal', Except.bind],
          (by simp; intro h; cases h), by simp; constructor <;> (intro h; cases h)⟩
      | zero =>
        cases d
        all_goals refine ⟨_, _, rfl, rfl, ?_, ?_⟩
        all_goals first
          | (constructor
             · intro hd; first | exact .array _ (by decide) | cases hd
             · intro hw; first | rfl | (cases hw; rename_i hw; revert hw; decide))
          | (constructor
             · intro hd; first | exact Or.inl (.array _ (by decide)) | exact Or.inr (.array _ (by decide)) | cases hd
             · intro hw; first | rfl | (rcases hw with hw | hw <;> (cases hw; rename_i hw; revert hw; decide)))
  obtain ⟨i, r, hi, hr, hi', hr'⟩ := key
  refine ⟨b, i, r, hb, hi, hr, hb', hi', hr', fun h => hr'.2 (Or.inl (hi'.1 h)), ?_⟩
  intro hbt
  constructor
  · cases i with
    | false => rfl
    | true =>
      have h1 := hb'.1 hbt
      have h2 := hi'.1 rfl
      cases h1 <;> cases h2 <;> simp at *
  · cases r with
    | false => rfl
    | true =>
      have h1 := hb'.1 hbt
      rcases hr'.1 rfl with h2 | h2 <;> cases h1 <;> cases h2 <;> simp at *

example : Val.tensor .int64 0 ≠ BF := by simp [BF]
example : IsWhole (.tensor .int64 0) ∧ IsFractional (.array .float32 0) := ⟨.tensor _ (by decide), .array _ (by decide)⟩

/-! ### Vectors -/

theorem allItems_spec (p : Val → Except PyErr Bool) (P : Val → Prop) (items : List Val) (h : ∀ v ∈ items, ∃ b, p v = .ok b ∧ (b = true ↔ P v)) :
    ∃ b, allItems p items = .ok b ∧ (b = true ↔ ∀ v ∈ items, P v) := by
  induction items with
  | nil => exact ⟨true, rfl, by simp⟩
  | cons v vs ih =>
    obtain ⟨b, hb, hb'⟩ := h v (by simp)
    obtain ⟨c, hc, hc'⟩ := ih (fun w hw => h w (by simp [hw]))
    cases b with
    | false =>
      refine ⟨false, by simp [allItems, hb, Except.bind], ?_⟩
      constructor
      · intro hf; cases hf
      · intro hall; exact hb'.2 (hall v (by simp))
    | true =>
      refine ⟨c, by simp [allItems, hb, Except.bind, hc], ?_⟩
      rw [hc']
      constructor
      · intro hall w hw
        rcases List.mem_cons.1 hw with rfl | hw
        · exact hb'.1 rfl
        · exact hall w hw
      · intro hall w hw; exact hall w (by simp [hw])

/-- A sequence is a vector of integers, reals or bools exactly when all its items are; so an empty one is all three. -/
theorem C131_vectors (items : List Val) (h : ∀ v ∈ items, v ≠ BF) :
    ∃ b i r, isBoolVector N (.iterable items) = .ok b ∧ isIntegerVector N (.iterable items) = .ok i ∧ isRealVector N (.iterable items) = .ok r ∧
      (b = true ↔ ∀ v ∈ items, IsTruth v) ∧ (i = true ↔ ∀ v ∈ items, IsWhole v) ∧ (r = true ↔ ∀ v ∈ items, IsWhole v ∨ IsFractional v) := by
  obtain ⟨b, hb, hb'⟩ := allItems_spec (isBool N) IsTruth items (fun v hv => by
    obtain ⟨b, _, _, h1, _, _, h2, _⟩ := C131_scalars N v (h v hv); exact ⟨b, h1, h2⟩)
  obtain ⟨i, hi, hi'⟩ := allItems_spec (isInteger N) IsWhole items (fun v hv => by
    obtain ⟨_, i, _, _, h1, _, _, h2, _⟩ := C131_scalars N v (h v hv); exact ⟨i, h1, h2⟩)
  obtain ⟨r, hr, hr'⟩ := allItems_spec (isReal N) (fun v => IsWhole v ∨ IsFractional v) items (fun v hv => by
    obtain ⟨_, _, r, _, _, h1, _, _, h2, _⟩ := C131_scalars N v (h v hv); exact ⟨r, h1, h2⟩)
  exact ⟨b, i, r, hb, hi, hr, hb', hi', hr'⟩

example : isIntegerVector N (.iterable [.integral, .tensor .int64 0]) = .ok true ∧ isRealVector N (.iterable [.integral, .array .float32 0]) = .ok true ∧
    isIntegerVector N (.iterable [.integral, .pyBool]) = .ok false := ⟨rfl, rfl, rfl⟩

/-- A one-dimensional tensor or array is classified like each of its elements; with any other number of dimensions it is no vector. -/
theorem C131_tensor_vectors (t : TorchDT) (ht : t ≠ .bfloat16) (d : NpDT) (n : Nat) :
    isBoolVector N (.tensor t 1) = isBool N (.tensor t 0) ∧ isIntegerVector N (.tensor t 1) = isInteger N (.tensor t 0) ∧ isRealVector N (.tensor t 1) = isReal N (.tensor t 0) ∧
    isBoolVector N (.array d 1) = isBool N (.array d 0) ∧ isIntegerVector N (.array d 1) = isInteger N (.array d 0) ∧ isRealVector N (.array d 1) = isReal N (.array d 0) ∧
    (n ≠ 1 → ∀ v ∈ [Val.tensor t n, .array d n], isBoolVector N v = .ok false ∧ isIntegerVector N v = .ok false ∧ isRealVector N v = .ok false) := by
  refine ⟨?_, ?_, ?_, ?_, ?_, ?_, ?_⟩
  · cases t <;> first | exact absurd rfl ht | rfl
  · cases t <;> first | exact absurd rfl ht | rfl
  · cases t <;> first | exact absurd rfl ht | rfl
  · cases d <;> rfl
  · cases d <;> rfl
  · cases d <;> rfl
  · intro hn v hv
    simp only [List.mem_cons, List.not_mem_nil, or_false] at hv
    rcases hv with rfl | rfl <;> simp [isBoolVector, isIntegerVector, isRealVector, hn]

/-- Strings are not sequences and, unless empty, no vectors; the empty string is accepted as a vector of each kind. -/
theorem C131_strings (n : Nat) :
    isSequence (.str n) = false ∧
    (n ≠ 0 → isBoolVector N (.str n) = .ok false ∧ isIntegerVector N (.str n) = .ok false ∧ isRealVector N (.str n) = .ok false) := by
  refine ⟨rfl, ?_⟩
  intro hn
  cases n with
  | zero => exact absurd rfl hn
  | succ n => exact ⟨rfl, rfl, rfl⟩

/-- The empty string, and an empty list, count as vectors of integers, of reals and of bools at once. -/
theorem C131_violated_empty : ∀ v ∈ [Val.str 0, .iterable []], isBoolVector N v = .ok true ∧ isIntegerVector N v = .ok true ∧ isRealVector N v = .ok true := by
  intro v hv
  simp only [List.mem_cons, List.not_mem_nil, or_false] at hv
  rcases hv with rfl | rfl <;> exact ⟨rfl, rfl, rfl⟩

/-- Bytes are no sequences either; but Python gives their items as integers, so that every bytes object, of any length, passes as a vector of integers and of reals. -/
theorem C131_violated_bytes (n : Nat) : isSequence (.bytes n) = false ∧ isIntegerVector N (.bytes n) = .ok true ∧ isRealVector N (.bytes n) = .ok true ∧ (n ≠ 0 → isBoolVector N (.bytes n) = .ok false) := by
  refine ⟨rfl, ?_, ?_, ?_⟩
  · induction n with
    | zero => rfl
    | succ n ih => exact ih
  · induction n with
    | zero => rfl
    | succ n ih => exact ih
  · intro hn
    cases n with
    | zero => exact absurd rfl hn
    | succ n => rfl

/-- Sequences are the iterables other than strings and bytes, and the tensors and arrays with at least one dimension. A sequence is never a scalar. -/
theorem C131_sequences (v : Val) :
    (isSequence v = true ↔ (∃ items, v = .iterable items) ∨ (∃ t n, v = .tensor t (n + 1)) ∨ ∃ d n, v = .array d (n + 1)) ∧
    (isSequence v = true → isBool N v = .ok false ∧ isInteger N v = .ok false ∧ isReal N v = .ok false) := by
  cases v with
  | tensor t n => cases n <;> simp [isSequence, isBool, isInteger, isReal, isInteger', isReal', Except.bind]
  | array t n => cases n <;> simp [isSequence, isBool, isInteger, isReal, isInteger', isReal', Except.bind]
  | iterable l => simp [isSequence, isBool, isInteger, isReal, isInteger', isReal', Except.bind]
  | _ => simp [isSequence]

/-- `expect_none` passes exactly when all arguments are None, and otherwise names the first one that is not. -/
theorem C131_expect_none {α : Type} (args : List (String × Option α)) :
    (expectNone args = .ok () ↔ ∀ p ∈ args, p.2 = none) ∧
    (∀ e k, expectNone args = .error (e, k) ↔ e = .valueError ∧ ∃ pre v post, args = pre ++ (k, some v) :: post ∧ ∀ p ∈ pre, p.2 = none) := by
  induction args with
  | nil => simp [expectNone]
  | cons p rest ih =>
    obtain ⟨k', v'⟩ := p
    cases v' with
    | none =>
      refine ⟨by simp [expectNone, ih.1], ?_⟩
      intro e k
      simp only [expectNone]
      rw [ih.2 e k]
      constructor
      · rintro ⟨he, pre, v, post, h1, h2⟩
        refine ⟨he, (k', none) :: pre, v, post, by simp [h1], ?_⟩
        intro q hq
        rcases List.mem_cons.1 hq with rfl | hq
        · rfl
        · exact h2 q hq
      · rintro ⟨he, pre, v, post, h1, h2⟩
        cases pre with
        | nil => simp at h1
        | cons q pre =>
          simp at h1
          exact ⟨he, pre, v, post, h1.2, fun q hq => h2 q (by simp [hq])⟩
    | some w =>
      refine ⟨by simp [expectNone], ?_⟩
      intro e k
      simp only [expectNone]
      constructor
      · intro h
        cases h
        exact ⟨rfl, [], w, rest, rfl, by simp⟩
      · rintro ⟨rfl, pre, v, post, h1, h2⟩
        cases pre with
        | nil => simp at h1; rw [h1.1.1]
        | cons q pre =>
          simp at h1
          have := h2 q (by simp)
          rw [← h1.1] at this
          cases this

example : expectNone [("a", none), ("b", some 3), ("c", some 4)] = .error (.valueError, "b") := rfl

end EvoTorch.Classify
