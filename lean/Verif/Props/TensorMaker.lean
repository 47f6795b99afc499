import Verif.Model.TensorMaker
import Mathlib.Data.List.Basic
/-!
C111: the tensor-making methods give tensors of the requested shape, dtype and device.
-/
namespace EvoTorch.TensorMaker
open EvoTorch

variable {Dt : Type}

/-! ### Specification -/

/-- The shape which the arguments ask for: some integers, a tuple of integers, or a number of solutions (each of the length of a solution, if solutions have a length). -/
inductive WantedShape (self : Self Dt) (a : Args Dt) : List ℕ → Prop
  | ints (l : List ℕ) : l ≠ [] → a.size = l.map .int → a.numSolutions = none → WantedShape self a l
  | tuple (l : List ℕ) : a.size = [.tuple l] → a.numSolutions = none → WantedShape self a l
  | solutions (n len : ℕ) : a.size = [] → a.numSolutions = some n → self.solutionLength = some (some len) → WantedShape self a [n, len]
  | objects (n : ℕ) : a.size = [] → a.numSolutions = some n → self.solutionLength = some none → WantedShape self a [n]

/-- The dtype which the arguments ask for: the given one, the dtype of evaluations, or the dtype of the object. -/
inductive WantedDtype (self : Self Dt) (a : Args Dt) : DtSpec Dt → Prop
  | given (d : DtSpec Dt) : a.dtype = some d → a.useEval = false → WantedDtype self a d
  | eval (d : DtSpec Dt) : a.dtype = none → a.useEval = true → self.evalDtype = some d → WantedDtype self a d
  | own : a.dtype = none → a.useEval = false → WantedDtype self a self.dtype

/-- The device which the arguments ask for. -/
def wantedDevice (self : Self Dt) (a : Args Dt) : String := match a.device with | some d => d | none => self.device

/-- The generator to be used: the given one, or that of the object, or the global one. -/
def wantedGenerator (self : Self Dt) (a : Args Dt) : Option ℕ :=
  match a.generator with
  | some g => g
  | none => match self.generator with | some g => g | none => none

/-! ### Lemmas -/

theorem intsOf_iff (l : List SizeArg) (s : List ℕ) : intsOf l = some s ↔ l = s.map .int := by
  induction l generalizing s with
  | nil => cases s <;> simp [intsOf]
  | cons x l ih =>
    cases x with
    | tuple t =>
      cases s <;> simp [intsOf]
    | int n =>
      cases s with
      | nil => simp [intsOf]
      | cons m s =>
        simp only [intsOf, Option.map_eq_some_iff, List.cons.injEq, List.map_cons, SizeArg.int.injEq]
        constructor
        · rintro ⟨s', h1, rfl, rfl⟩
          exact ⟨rfl, (ih s').1 h1⟩
        · rintro ⟨rfl, h⟩
          exact ⟨s, (ih s).2 h, rfl, rfl⟩

theorem shapeOfArgs_iff (l : List SizeArg) (s : List ℕ) : shapeOfArgs l = .ok s ↔ l = [.tuple s] ∨ (s ≠ [] ∧ l = s.map .int) := by
  unfold shapeOfArgs
  split
  · cases s <;> simp
  · rename_i t
    simp only [Except.ok.injEq, List.cons.injEq, SizeArg.tuple.injEq, and_true]
    constructor
    · exact .inl
    · rintro (h | ⟨hs, h⟩)
      · exact h
      · cases s with
        | nil => exact absurd rfl hs
        | cons a s => simp at h
  · rename_i h1 h2
    have hne : l ≠ [.tuple s] := fun e => h2 s e
    simp only [hne, false_or]
    cases h : intsOf l with
    | none =>
      simp only [reduceCtorEq, false_iff, not_and]
      intro _ e
      rw [(intsOf_iff l s).2 e] at h
      cases h
    | some t =>
      simp only [Except.ok.injEq]
      have ht := (intsOf_iff l t).1 h
      constructor
      · rintro rfl
        refine ⟨?_, ht⟩
        rintro rfl
        exact h1 (by simpa using ht)
      · rintro ⟨_, e⟩
        rw [(intsOf_iff l s).2 e] at h
        cases h
        rfl

theorem sizeArgs_shape (self : Self Dt) (a : Args Dt) (s : List ℕ) :
    (sizeArgs self a.size a.numSolutions).bind shapeOfArgs = .ok s ↔ WantedShape self a s := by
  constructor
  · intro h
    unfold sizeArgs at h
    split at h
    · simp [Except.bind, shapeOfArgs] at h
    · rename_i x xs h1 h2
      simp only [Except.bind] at h
      rcases (shapeOfArgs_iff _ _).1 h with e | ⟨e1, e2⟩
      · exact .tuple s (by rw [h1, e]) h2
      · exact .ints s e1 (by rw [h1, e2]) h2
    · rename_i n h1 h2
      split at h
      · simp [Except.bind] at h
      · rename_i hl
        have : s = [n] := by
          simp [Except.bind, shapeOfArgs, intsOf] at h
          exact h.symm
        subst this
        exact .objects n h1 h2 hl
      · rename_i l hl
        have : s = [n, l] := by
          simp [Except.bind, shapeOfArgs, intsOf] at h
          exact h.symm
        subst this
        exact .solutions n l h1 h2 hl
    · simp [Except.bind] at h
  · intro h
    cases h with
    | ints l hl h1 h2 =>
      cases s with
      | nil => exact absurd rfl hl
      | cons x xs =>
        rw [h1, h2]
        simp only [List.map_cons, sizeArgs, Except.bind]
        exact (shapeOfArgs_iff _ _).2 (.inr ⟨hl, rfl⟩)
    | tuple l h1 h2 =>
      rw [h1, h2]
      simp only [sizeArgs, Except.bind]
      exact (shapeOfArgs_iff _ _).2 (.inl rfl)
    | solutions n len h1 h2 h3 =>
      simp [h1, h2, h3, sizeArgs, Except.bind, shapeOfArgs, intsOf]
    | objects n h1 h2 h3 =>
      simp [h1, h2, h3, sizeArgs, Except.bind, shapeOfArgs, intsOf]

theorem dtypeAndDevice_ok (self : Self Dt) (a : Args Dt) (dd : DtSpec Dt × String) :
    dtypeAndDevice self a.dtype a.device a.useEval = .ok dd ↔ WantedDtype self a dd.1 ∧ dd.2 = wantedDevice self a := by
  obtain ⟨d, v⟩ := dd
  have hdev : a.device.getD self.device = wantedDevice self a := by
    unfold wantedDevice
    cases a.device <;> rfl
  unfold dtypeAndDevice
  rw [hdev]
  constructor
  · intro h
    cases hd : a.dtype with
    | none =>
      cases hu : a.useEval with
      | false =>
        simp [hd, hu, Except.bind] at h
        obtain ⟨rfl, rfl⟩ := h
        exact ⟨.own hd hu, rfl⟩
      | true =>
        cases he : self.evalDtype with
        | none => simp [hd, hu, he, Except.bind] at h
        | some e =>
          simp [hd, hu, he, Except.bind] at h
          obtain ⟨rfl, rfl⟩ := h
          exact ⟨.eval e hd hu he, rfl⟩
    | some e =>
      cases hu : a.useEval with
      | false =>
        simp [hd, hu, Except.bind] at h
        obtain ⟨rfl, rfl⟩ := h
        exact ⟨.given e hd hu, rfl⟩
      | true => simp [hd, hu, Except.bind] at h
  · rintro ⟨h, rfl⟩
    cases h with
    | given d h1 h2 => simp [h1, h2, Except.bind]
    | eval d h1 h2 h3 => simp [h1, h2, h3, Except.bind]
    | own h1 h2 => simp [h1, h2, Except.bind]

theorem bind_ok {α β : Type} (x : Except PyErr α) (f : α → Except PyErr β) (b : β) : x.bind f = .ok b ↔ ∃ a, x = .ok a ∧ f a = .ok b := by
  cases x with
  | error e => simp [Except.bind]
  | ok a => simp [Except.bind]

theorem miscEmpty_numeric (parse : String → Option Dt) (fresh : ℕ) (size : List SizeArg) (dt : DtSpec Dt) (dev : String) (r : Arr Dt) (hr : r.dtype ≠ none) :
    miscEmpty parse fresh size dt dev = .ok (.arr r) ↔ ∃ d s, toTorch parse dt = .ok d ∧ shapeOfArgs size = .ok s ∧ r = ⟨fresh, s, some d, dev, .raw⟩ := by
  cases dt with
  | obj =>
    simp only [miscEmpty, toTorch, reduceCtorEq, false_and, exists_false, iff_false]
    intro h
    split at h
    · rw [bind_ok] at h
      obtain ⟨s, _, h⟩ := h
      cases h
      exact hr rfl
    · cases h
  | torch d =>
    simp only [miscEmpty, bind_ok]
    constructor
    · rintro ⟨d', h1, s, h2, h3⟩
      cases h3
      exact ⟨d', s, h1, h2, rfl⟩
    · rintro ⟨d', s, h1, h2, rfl⟩
      exact ⟨d', h1, s, h2, rfl⟩
  | name n =>
    simp only [miscEmpty, bind_ok]
    constructor
    · rintro ⟨d', h1, s, h2, h3⟩
      cases h3
      exact ⟨d', s, h1, h2, rfl⟩
    · rintro ⟨d', s, h1, h2, rfl⟩
      exact ⟨d', h1, s, h2, rfl⟩

theorem scalarRequested_iff (size : List SizeArg) : scalarRequested size = true ↔ size = [.tuple []] := by
  unfold scalarRequested
  split
  · simp
  · rename_i h
    simp only [Bool.false_eq_true, false_iff]
    exact fun e => h e

/-- Numbers fit into the dtype: everything does, except NaN into integers. -/
def FitsIn (holdsNan : Dt → Bool) (c : Content) (d : Dt) : Prop := c = .nan → holdsNan d = true

theorem fill_ok (holdsNan : Dt → Bool) (c : Content) (m : Made Dt) (r : Made Dt) :
    fill holdsNan c m = .ok r ↔ ∃ a d, m = .arr a ∧ a.dtype = some d ∧ (c = .zeros ∨ c = .eye ∨ a.shape ≠ []) ∧ FitsIn holdsNan c d ∧ r = .arr { a with content := c } := by
  cases m with
  | exceptionObject => simp [fill]
  | element x => simp [fill]
  | arr a =>
    obtain ⟨i0, sh, dt, dev, ct⟩ := a
    unfold fill
    cases dt with
    | none =>
      simp only [reduceCtorEq, false_iff]
      rintro ⟨a', d, h1, h2, -⟩
      cases h1; cases h2
    | some d =>
      by_cases h0 : c = .zeros ∨ c = .eye
      · simp only [h0, if_true, Except.ok.injEq]
        constructor
        · rintro rfl
          refine ⟨_, d, rfl, rfl, by rcases h0 with h | h <;> simp [h], fun h => ?_, rfl⟩
          rcases h0 with h' | h' <;> rw [h'] at h <;> cases h
        · rintro ⟨a', d', h1, -, -, -, rfl⟩
          cases h1; rfl
      · simp only [h0, if_false]
        by_cases h1 : sh = []
        · simp only [h1, if_true, reduceCtorEq, false_iff]
          rintro ⟨a', d', h2, -, h3, -⟩
          cases h2
          rcases h3 with h3 | h3 | h3
          · exact h0 (.inl h3)
          · exact h0 (.inr h3)
          · exact h3 rfl
        · simp only [h1, if_false]
          by_cases h2 : c = .nan ∧ holdsNan d = false
          · rw [if_pos h2]
            simp only [reduceCtorEq, false_iff]
            rintro ⟨a', d', h3, h4, -, h5, -⟩
            cases h3
            cases h4
            rw [h5 h2.1] at h2
            exact absurd h2.2 (by simp)
          · rw [if_neg h2]
            simp only [Except.ok.injEq]
            constructor
            · rintro rfl
              refine ⟨_, d, rfl, rfl, .inr (.inr h1), fun h => ?_, rfl⟩
              cases hh : holdsNan d with
              | true => rfl
              | false => exact absurd ⟨h, hh⟩ h2
            · rintro ⟨a', d', h3, -, -, -, rfl⟩
              cases h3; rfl

theorem scalarOf_ok (holdsNan : Dt → Bool) (c : Content) (m : Made Dt) (r : Arr Dt) :
    scalarOf holdsNan c m = .ok (.arr r) ↔ ∃ a d, m = .arr a ∧ a.dtype = some d ∧ FitsIn holdsNan c d ∧ r = { a with shape := [], content := c } := by
  cases m with
  | exceptionObject => simp [scalarOf]
  | element x => simp [scalarOf]
  | arr a =>
    obtain ⟨i0, sh, dt, dev, ct⟩ := a
    unfold scalarOf
    cases dt with
    | none =>
      simp only [Except.ok.injEq, reduceCtorEq, false_iff]
      rintro ⟨a', d, h1, h2, -⟩
      cases h1; cases h2
    | some d =>
      simp only
      by_cases h2 : c = .nan ∧ holdsNan d = false
      · rw [if_pos h2]
        simp only [reduceCtorEq, false_iff]
        rintro ⟨a', d', h3, h4, h5, -⟩
        cases h3
        cases h4
        rw [h5 h2.1] at h2
        exact absurd h2.2 (by simp)
      · rw [if_neg h2]
        simp only [Except.ok.injEq, Made.arr.injEq]
        constructor
        · rintro rfl
          refine ⟨_, d, rfl, rfl, fun h => ?_, rfl⟩
          cases hh : holdsNan d with
          | true => rfl
          | false => exact absurd ⟨h, hh⟩ h2
        · rintro ⟨a', d', h3, -, -, rfl⟩
          cases h3; rfl

theorem shapeOfArgs_empty (size : List SizeArg) : shapeOfArgs size = .ok [] ↔ size = [.tuple []] := by
  rw [shapeOfArgs_iff]
  simp

theorem miscFilled_numeric (parse : String → Option Dt) (holdsNan : Dt → Bool) (fresh : ℕ) (c : Content) (size : List SizeArg) (dt : DtSpec Dt) (dev : String) (r : Arr Dt) :
    miscFilled parse holdsNan fresh c size dt dev = .ok (.arr r) ↔
      ∃ d s, toTorch parse dt = .ok d ∧ shapeOfArgs size = .ok s ∧ FitsIn holdsNan c d ∧ r = ⟨fresh, s, some d, dev, c⟩ := by
  unfold miscFilled
  split
  · rename_i hs
    rw [scalarRequested_iff] at hs
    subst hs
    simp only [bind_ok, scalarOf_ok]
    constructor
    · rintro ⟨m, h1, a, d, rfl, h2, h3, rfl⟩
      obtain ⟨d', s, k1, k2, rfl⟩ := (miscEmpty_numeric _ _ _ _ _ a (by rw [h2]; simp)).1 h1
      cases h2
      exact ⟨d, [], k1, rfl, h3, rfl⟩
    · rintro ⟨d, s, k1, k2, k3, rfl⟩
      have hsn : s = [] := by simpa [shapeOfArgs] using k2.symm
      subst hsn
      exact ⟨.arr ⟨fresh, [1], some d, dev, .raw⟩, (miscEmpty_numeric _ _ _ _ _ _ (by simp)).2 ⟨d, [1], k1, rfl, rfl⟩, _, d, rfl, rfl, k3, rfl⟩
  · rename_i hs
    rw [scalarRequested_iff] at hs
    simp only [bind_ok, fill_ok]
    constructor
    · rintro ⟨m, h1, a, d, rfl, h2, -, h3, h4⟩
      simp only [Made.arr.injEq] at h4
      subst h4
      obtain ⟨d', s, k1, k2, rfl⟩ := (miscEmpty_numeric _ _ _ _ _ a (by rw [h2]; simp)).1 h1
      cases h2
      exact ⟨d, s, k1, k2, h3, rfl⟩
    · rintro ⟨d, s, k1, k2, k3, rfl⟩
      refine ⟨_, (miscEmpty_numeric _ _ _ _ _ ⟨fresh, s, some d, dev, .raw⟩ (by simp)).2 ⟨d, s, k1, k2, rfl⟩, _, d, rfl, rfl, .inr (.inr ?_), k3, rfl⟩
      rintro (rfl : s = [])
      exact hs ((shapeOfArgs_empty size).1 k2)

/-! ### The claims -/

/-- C111: `make_zeros`, `make_ones` and `make_nan` return a tensor exactly if a shape and a numeric dtype are asked for which can represent the number (integers cannot represent NaN), and it is a new
tensor of that shape and dtype on the device asked for, filled with the number. -/
theorem C111_filled (parse : String → Option Dt) (holdsNan : Dt → Bool) (fresh : ℕ) (self : Self Dt) (c : Content) (a : Args Dt) (r : Arr Dt) :
    makeFilled parse holdsNan fresh self c a none = .ok (.arr r) ↔
      ∃ s spec d, WantedShape self a s ∧ WantedDtype self a spec ∧ toTorch parse spec = .ok d ∧ FitsIn holdsNan c d ∧ r = ⟨fresh, s, some d, wantedDevice self a, c⟩ := by
  unfold makeFilled
  simp only [bind_ok, miscFilled_numeric]
  constructor
  · rintro ⟨sz, h1, dd, h2, d, s, h3, h4, h5, rfl⟩
    obtain ⟨k1, k2⟩ := (dtypeAndDevice_ok self a dd).1 h2
    refine ⟨s, dd.1, d, (sizeArgs_shape self a s).1 ?_, k1, h3, h5, by rw [k2]⟩
    rw [bind_ok]
    exact ⟨sz, h1, h4⟩
  · rintro ⟨s, spec, d, h1, h2, h3, h5, rfl⟩
    have h1' := (sizeArgs_shape self a s).2 h1
    rw [bind_ok] at h1'
    obtain ⟨sz, k1, k2⟩ := h1'
    exact ⟨sz, k1, (spec, wantedDevice self a), (dtypeAndDevice_ok self a _).2 ⟨h2, rfl⟩, d, s, h3, k2, h5, rfl⟩

/-- C111: the same for `make_empty`, whose elements are uninitialised. -/
theorem C111_empty_partial (parse : String → Option Dt) (fresh : ℕ) (self : Self Dt) (a : Args Dt) (r : Arr Dt) (hr : r.dtype ≠ none) :
    makeEmpty parse fresh self a none = .ok (.arr r) ↔
      ∃ s spec d, WantedShape self a s ∧ WantedDtype self a spec ∧ toTorch parse spec = .ok d ∧ r = ⟨fresh, s, some d, wantedDevice self a, .raw⟩ := by
  unfold makeEmpty
  simp only [bind_ok, miscEmpty_numeric _ _ _ _ _ _ hr]
  constructor
  · rintro ⟨sz, h1, dd, h2, d, s, h3, h4, rfl⟩
    obtain ⟨k1, k2⟩ := (dtypeAndDevice_ok self a dd).1 h2
    refine ⟨s, dd.1, d, (sizeArgs_shape self a s).1 ?_, k1, h3, by rw [k2]⟩
    rw [bind_ok]
    exact ⟨sz, h1, h4⟩
  · rintro ⟨s, spec, d, h1, h2, h3, rfl⟩
    have h1' := (sizeArgs_shape self a s).2 h1
    rw [bind_ok] at h1'
    obtain ⟨sz, k1, k2⟩ := h1'
    exact ⟨sz, k1, (spec, wantedDevice self a), (dtypeAndDevice_ok self a _).2 ⟨h2, rfl⟩, d, s, h3, k2, rfl⟩

/-- C111: sizes together with a number of solutions, and a dtype together with `use_eval_dtype`, are refused with a ValueError; a number of solutions without a solution length, and
`use_eval_dtype` without an evaluation dtype, with an AttributeError. -/
theorem C111_refused (parse : String → Option Dt) (holdsNan : Dt → Bool) (fresh : ℕ) (self : Self Dt) (c : Content) (a : Args Dt) :
    (a.size ≠ [] → a.numSolutions ≠ none → makeFilled parse holdsNan fresh self c a none = .error .valueError) ∧
      (a.size = [] → a.numSolutions ≠ none → self.solutionLength = none → makeFilled parse holdsNan fresh self c a none = .error .attributeError) ∧
      (∀ s, WantedShape self a s → a.dtype ≠ none → a.useEval = true → makeFilled parse holdsNan fresh self c a none = .error .valueError) ∧
      (∀ s, WantedShape self a s → a.dtype = none → a.useEval = true → self.evalDtype = none → makeFilled parse holdsNan fresh self c a none = .error .attributeError) := by
  refine ⟨?_, ?_, ?_, ?_⟩
  · intro h1 h2
    obtain ⟨x, xs, hx⟩ := List.exists_cons_of_ne_nil h1
    obtain ⟨n, hn⟩ := Option.ne_none_iff_exists'.1 h2
    simp [makeFilled, sizeArgs, hx, hn, Except.bind]
  · intro h1 h2 h3
    obtain ⟨n, hn⟩ := Option.ne_none_iff_exists'.1 h2
    simp [makeFilled, sizeArgs, h1, hn, h3, Except.bind]
  · intro s hs h1 h2
    have h1' := (sizeArgs_shape self a s).2 hs
    rw [bind_ok] at h1'
    obtain ⟨sz, k1, _⟩ := h1'
    obtain ⟨d, hd⟩ := Option.ne_none_iff_exists'.1 h1
    simp [makeFilled, k1, dtypeAndDevice, hd, h2, Except.bind]
  · intro s hs h1 h2 h3
    have h1' := (sizeArgs_shape self a s).2 hs
    rw [bind_ok] at h1'
    obtain ⟨sz, k1, _⟩ := h1'
    simp [makeFilled, k1, dtypeAndDevice, h1, h2, h3, Except.bind]

/-- C111: with `out`, that tensor is filled and returned; its shape, dtype and device stay as they are. (A tensor without dimensions is an exception, see `C111_violated_out_scalar`.) -/
theorem C111_out_partial (parse : String → Option Dt) (holdsNan draws : Dt → Bool) (fresh : ℕ) (self : Self Dt) (a : Args Dt) (o : Arr Dt) (d : Dt) (hd : o.dtype = some d) :
    (∀ c, FitsIn holdsNan c d → c = .zeros ∨ o.shape ≠ [] →
      ∃ r, makeFilled parse holdsNan fresh self c a (some o) = .ok (.arr r) ∧ r.ident = o.ident ∧ r.shape = o.shape ∧ r.dtype = o.dtype ∧ r.device = o.device ∧ r.content = c) ∧
    (draws d = true → ∃ r, makeRandom draws fresh self a (some o) = .ok (.arr r) ∧ r.ident = o.ident ∧ r.shape = o.shape ∧ r.dtype = o.dtype ∧ r.device = o.device ∧
      r.content = .random (wantedGenerator self a)) := by
  constructor
  · intro c h1 h2
    exact ⟨_, (fill_ok holdsNan c (.arr o) _).2 ⟨o, d, rfl, hd, by rcases h2 with h | h <;> simp [h], h1, rfl⟩, rfl, rfl, rfl, rfl, rfl⟩
  · intro h
    have hgen : generatorOf self a.generator = wantedGenerator self a := by
      unfold generatorOf wantedGenerator
      cases a.generator <;> simp
      cases self.generator <;> rfl
    exact ⟨{ o with content := .random (generatorOf self a.generator) }, by simp [makeRandom, hd, h], rfl, rfl, rfl, rfl, by rw [← hgen]⟩

/-- C111: `make_uniform` and `make_gaussian` return a tensor exactly if a shape is asked for and a dtype of which PyTorch can draw (for `make_gaussian`: not integers or bools), which is a PyTorch dtype (and
not the name of one, see `C111_violated_dtype_name`); the shape,
the dtype and the device are those asked for, and the elements are drawn from the generator asked for. -/
theorem C111_random_partial (draws : Dt → Bool) (fresh : ℕ) (self : Self Dt) (a : Args Dt) (r : Arr Dt) :
    makeRandom draws fresh self a none = .ok (.arr r) ↔
      ∃ s d, WantedShape self a s ∧ WantedDtype self a (.torch d) ∧ draws d = true ∧ r = ⟨fresh, s, some d, wantedDevice self a, .random (wantedGenerator self a)⟩ := by
  have hgen : generatorOf self a.generator = wantedGenerator self a := by
    unfold generatorOf wantedGenerator
    cases a.generator <;> simp
    cases self.generator <;> rfl
  unfold makeRandom
  simp only [bind_ok, hgen]
  constructor
  · rintro ⟨sz, h1, dd, h2, h3⟩
    obtain ⟨k1, k2⟩ := (dtypeAndDevice_ok self a dd).1 h2
    obtain ⟨spec, dev⟩ := dd
    simp only at k1 k2 h3
    subst k2
    cases spec with
    | torch d =>
      simp only [miscRandom, bind_ok] at h3
      obtain ⟨s, h4, h5⟩ := h3
      split at h5
      · rename_i h6
        cases h5
        refine ⟨s, d, (sizeArgs_shape self a s).1 ?_, k1, h6, rfl⟩
        rw [bind_ok]
        exact ⟨sz, h1, h4⟩
      · cases h5
    | name n => simp [miscRandom] at h3
    | obj => simp [miscRandom] at h3
  · rintro ⟨s, d, h1, h2, h6, rfl⟩
    have h1' := (sizeArgs_shape self a s).2 h1
    rw [bind_ok] at h1'
    obtain ⟨sz, k1, k2⟩ := h1'
    refine ⟨sz, k1, (.torch d, wantedDevice self a), (dtypeAndDevice_ok self a _).2 ⟨h2, rfl⟩, ?_⟩
    simp only [miscRandom, bind_ok]
    exact ⟨s, k2, by rw [if_pos h6]⟩

/-- C111: the tensors of `make_uniform_shaped_like` and `make_gaussian_shaped_like` have the shape of the given tensor, but the dtype, the device and the generator of the object, whatever those of
the given tensor are. -/
theorem C111_shaped_like (draws : Dt → Bool) (fresh : ℕ) (self : Self Dt) (t : Arr Dt) (d : Dt) (hd : self.dtype = .torch d) (hr : draws d = true) :
    makeShapedLike draws fresh self t = .ok (.arr ⟨fresh, t.shape, some d, self.device, .random (self.generator.getD none)⟩) := by
  have h := (C111_random_partial draws fresh self { size := [.tuple t.shape] } ⟨fresh, t.shape, some d, self.device, .random (self.generator.getD none)⟩).2
    ⟨t.shape, d, .tuple _ rfl rfl, hd ▸ .own rfl rfl, hr, by simp [wantedDevice, wantedGenerator]; cases self.generator <;> rfl⟩
  exact h

/-- C111: `make_randint` makes 64-bit integers, unless another dtype is given. -/
theorem C111_randint_partial (int64 : Dt) (fresh : ℕ) (self : Self Dt) (a : Args Dt) (hu : a.useEval = false) (s : List ℕ) (hs : WantedShape self a s) :
    (a.dtype = none → makeRandint int64 fresh self a none = .ok (.arr ⟨fresh, s, some int64, wantedDevice self a, .random (wantedGenerator self a)⟩)) ∧
      (∀ d, a.dtype = some (.torch d) → makeRandint int64 fresh self a none = .ok (.arr ⟨fresh, s, some d, wantedDevice self a, .random (wantedGenerator self a)⟩)) := by
  have hws : ∀ x, WantedShape self { a with dtype := x } s := by
    intro x
    cases hs with
    | ints l h1 h2 h3 => exact .ints s h1 h2 h3
    | tuple l h1 h2 => exact .tuple s h1 h2
    | solutions n len h1 h2 h3 => exact .solutions n len h1 h2 h3
    | objects n h1 h2 h3 => exact .objects n h1 h2 h3
  constructor
  · intro hd
    unfold makeRandint
    simp only [hd, Option.isNone_none, Bool.and_self, if_true]
    rw [C111_random_partial]
    exact ⟨s, int64, hws _, .given _ rfl hu, rfl, rfl⟩
  · intro d hd
    unfold makeRandint
    simp only [hd, Option.isNone_some, Bool.false_and, Bool.false_eq_true, if_false]
    rw [C111_random_partial]
    exact ⟨s, d, hs, .given _ hd hu, rfl, rfl⟩

/-- C111: `make_I` makes a square identity matrix of the given size, or else of the solution length. -/
theorem C111_identity (parse : String → Option Dt) (fresh : ℕ) (self : Self Dt) (size : Option SizeArg) (a : Args Dt) (n : ℕ) (spec : DtSpec Dt) (d : Dt) (hd : WantedDtype self a spec)
    (ht : toTorch parse spec = .ok d) (hn : size = some (.int n) ∨ size = some (.tuple [n]) ∨ (size = none ∧ self.solutionLength = some (some n))) :
    makeI parse fresh self size a = .ok (.arr ⟨fresh, [n, n], some d, wantedDevice self a, .eye⟩) := by
  have hdd := (dtypeAndDevice_ok self a (spec, wantedDevice self a)).2 ⟨hd, rfl⟩
  have he : miscEmpty parse fresh [.int n, .int n] spec (wantedDevice self a) = .ok (.arr ⟨fresh, [n, n], some d, wantedDevice self a, .raw⟩) :=
    (miscEmpty_numeric _ _ _ _ _ _ (by simp)).2 ⟨d, [n, n], ht, rfl, rfl⟩
  rcases hn with rfl | rfl | ⟨rfl, hl⟩
  · simp [makeI, hdd, he, fill, Except.bind]
  · simp [makeI, hdd, he, fill, Except.bind]
  · simp [makeI, hl, hdd, he, fill, Except.bind]

/-- C111: the method `as_tensor` gives a tensor of the dtype and on the device asked for, with the shape of the given one; and the given tensor itself if nothing has to be changed. -/
theorem C111_as_tensor [DecidableEq Dt] (parse : String → Option Dt) (float64 : Dt) (fresh : ℕ) (self : Self Dt) (x : Arr Dt) (dx : Dt) (hx : x.dtype = some dx) (a : Args Dt) (spec : DtSpec Dt) (d : Dt)
    (hd : WantedDtype self a spec) (ht : toTorch parse spec = .ok d) :
    ∃ r, asTensor parse float64 fresh self (.arr x) a = .ok r ∧ r.dtype = some d ∧ r.device = wantedDevice self a ∧ r.shape = x.shape ∧ r.content = x.content ∧
      (dx = d → x.device = wantedDevice self a → r = x) := by
  have hdd := (dtypeAndDevice_ok self a (spec, wantedDevice self a)).2 ⟨hd, rfl⟩
  have hm : miscAsTensor parse float64 fresh (.arr x) (some spec) (some (wantedDevice self a)) = torchAsTensor fresh (.arr x) d (some (wantedDevice self a)) := by
    cases spec with
    | obj => simp [toTorch] at ht
    | torch e => simp [miscAsTensor, ht, Except.bind]
    | name e => simp [miscAsTensor, ht, Except.bind]
  have hr : asTensor parse float64 fresh self (.arr x) a = torchAsTensor fresh (.arr x) d (some (wantedDevice self a)) := by
    simp only [asTensor, hdd, Except.bind]
    exact hm
  rw [hr]
  simp only [torchAsTensor, hx, Option.getD_some]
  split
  · rename_i hc
    refine ⟨x, rfl, by rw [hx, hc.1], hc.2.symm, rfl, rfl, fun _ _ => rfl⟩
  · rename_i hc
    exact ⟨_, rfl, rfl, rfl, rfl, rfl, fun h1 h2 => absurd ⟨h1, h2.symm⟩ hc⟩

/-! ### Where the claim fails -/

/-- C111 fails: the random makers refuse the name of a dtype ("float32"), which is documented and works with the other makers. -/
theorem C111_violated_dtype_name (parse : String → Option Dt) (holdsNan draws : Dt → Bool) (fresh : ℕ) (self : Self Dt) (a : Args Dt) (s : List ℕ) (hs : WantedShape self a s) (name : String) (d : Dt)
    (hn : parse name = some d) (h1 : a.dtype = some (.name name)) (h2 : a.useEval = false) :
    makeRandom draws fresh self a none = .error .typeError ∧ ∃ r, makeFilled parse holdsNan fresh self .zeros a none = .ok (.arr r) ∧ r.dtype = some d := by
  constructor
  · have h1' := (sizeArgs_shape self a s).2 hs
    rw [bind_ok] at h1'
    obtain ⟨sz, k1, _⟩ := h1'
    simp [makeRandom, k1, dtypeAndDevice, h1, h2, Except.bind, miscRandom]
  · exact ⟨_, (C111_filled parse holdsNan fresh self .zeros a ⟨fresh, s, some d, wantedDevice self a, .zeros⟩).2
      ⟨s, _, d, hs, .given _ h1 h2, by simp [toTorch, hn], fun h => (by cases h), rfl⟩, rfl⟩

/-- C111 fails: `make_randint` cannot be used with `use_eval_dtype`, although no dtype is given. -/
theorem C111_violated_randint_eval (int64 : Dt) (fresh : ℕ) (self : Self Dt) (a : Args Dt) (hu : a.useEval = true) : ∃ e, makeRandint int64 fresh self a none = .error e := by
  cases h : makeRandint int64 fresh self a none with
  | error e => exact ⟨e, rfl⟩
  | ok m =>
    exfalso
    unfold makeRandint makeRandom at h
    simp only [bind_ok] at h
    obtain ⟨sz, _, dd, h2, _⟩ := h
    cases hd : a.dtype with
    | none =>
      simp only [hd, Option.isNone_none, Bool.and_self, if_true] at h2
      simp [dtypeAndDevice, hu, Except.bind] at h2
    | some d =>
      simp only [hd, Option.isNone_some, Bool.false_and, Bool.false_eq_true, if_false] at h2
      simp [dtypeAndDevice, hu, hd, Except.bind] at h2

/-- C111 fails: `make_empty` has an argument `out`, but any use of it is a TypeError. -/
theorem C111_violated_empty_out (parse : String → Option Dt) (fresh : ℕ) (self : Self Dt) (a : Args Dt) (o : Arr Dt) : makeEmpty parse fresh self a (some o) = .error .typeError := rfl

/-- C111 fails: for an object array on another device than the cpu, `make_empty` returns an exception instead of raising it. -/
theorem C111_violated_exception_returned (parse : String → Option Dt) (fresh : ℕ) (self : Self Dt) (a : Args Dt) (s : List ℕ) (hs : WantedShape self a s) (hd : WantedDtype self a .obj)
    (hv : wantedDevice self a ≠ "cpu") : makeEmpty parse fresh self a none = .ok .exceptionObject := by
  have h1' := (sizeArgs_shape self a s).2 hs
  rw [bind_ok] at h1'
  obtain ⟨sz, k1, _⟩ := h1'
  have hdd := (dtypeAndDevice_ok self a (.obj, wantedDevice self a)).2 ⟨hd, rfl⟩
  simp [makeEmpty, k1, hdd, miscEmpty, hv, Except.bind]

/-- C111 fails: arguments which contradict `out` are silently dropped; here a size and a number of solutions at once. -/
theorem C111_violated_out_contradicted (parse : String → Option Dt) (holdsNan : Dt → Bool) (fresh : ℕ) (self : Self Dt) (o : Arr Dt) (d : Dt) (hd : o.dtype = some d) :
    makeFilled parse holdsNan fresh self .zeros { size := [.int (o.shape.headD 0 + 1)], numSolutions := some 3 } (some o) = .ok (.arr { o with content := .zeros }) := by
  simp [makeFilled, fill, hd]

/-- C111 fails: a tensor without dimensions, which `make_zeros` fills as `out`, is refused by `make_ones` and `make_nan` with an IndexError. -/
theorem C111_violated_out_scalar (parse : String → Option Dt) (holdsNan : Dt → Bool) (fresh : ℕ) (self : Self Dt) (a : Args Dt) (o : Arr Dt) (d : Dt) (hd : o.dtype = some d) (hs : o.shape = []) :
    makeFilled parse holdsNan fresh self .zeros a (some o) = .ok (.arr { o with content := .zeros }) ∧ makeFilled parse holdsNan fresh self .ones a (some o) = .error .indexError ∧
      makeFilled parse holdsNan fresh self .nan a (some o) = .error .indexError := by
  simp [makeFilled, fill, hd, hs]

/-- C111 fails: a problem whose dtype is `object` has these makers too, and can make an empty array of `n` solutions with them; but none with zeros (AttributeError), ones or NaN (TypeError), although
arrays of objects may contain numbers; asked for a scalar, they return the number. -/
theorem C111_violated_objects (parse : String → Option Dt) (holdsNan : Dt → Bool) (fresh : ℕ) (self : Self Dt) (n : ℕ) (h1 : self.dtype = .obj) (h2 : self.device = "cpu") (h3 : self.solutionLength = some none) :
    makeEmpty parse fresh self { numSolutions := some n } none = .ok (.arr ⟨fresh, [n], none, "cpu", .raw⟩) ∧
      makeFilled parse holdsNan fresh self .zeros { numSolutions := some n } none = .error .attributeError ∧
      makeFilled parse holdsNan fresh self .ones { numSolutions := some n } none = .error .typeError ∧
      makeFilled parse holdsNan fresh self .nan { numSolutions := some n } none = .error .typeError ∧
      ∀ c, makeFilled parse holdsNan fresh self c { size := [.tuple []] } none = .ok (.element c) := by
  simp [makeEmpty, makeFilled, sizeArgs, dtypeAndDevice, h1, h2, h3, miscEmpty, miscFilled, scalarRequested, scalarOf, fill, objShape, Except.bind]

/-- C111 fails: the function `as_tensor` does not move tensors: asked for another device than the cpu it raises a ValueError (its documentation shows such a call); asked for the cpu it returns the
tensor where it is. And without a dtype it makes `float64` tensors, where torch would infer the dtype. -/
theorem C111_violated_as_tensor [DecidableEq Dt] (parse : String → Option Dt) (float64 : Dt) (fresh : ℕ) (x : Arr Dt) (dev : String) (hdev : dev ≠ "cpu") (len : ℕ) (d : Dt) (hd : d ≠ float64) :
    miscAsTensor parse float64 fresh (.arr x) none (some dev) = .error .valueError ∧
      miscAsTensor parse float64 fresh (.arr { x with device := dev }) none (some "cpu") = .ok { x with device := dev } ∧
      (∃ r, miscAsTensor parse float64 fresh (.other len d) none none = .ok r ∧ r.dtype ≠ some d) := by
  refine ⟨by simp [miscAsTensor, hdev], by simp [miscAsTensor], _, rfl, ?_⟩
  simp only [ne_eq, Option.some.injEq]
  exact fun e => hd e.symm

/-- C111: sizes that do not describe a shape are refused with a TypeError (a ValueError for objects, which have one dimension), names of no dtype with a TypeError. -/
theorem C111_shapes_refused (parse : String → Option Dt) (holdsNan : Dt → Bool) (fresh : ℕ) (dev : String) :
    (∀ d : Dt, miscEmpty parse fresh [] (.torch d) dev = .error .typeError) ∧
    (∀ (d : Dt) (l l' : List ℕ) (rest : List SizeArg), miscEmpty parse fresh (.tuple l :: .tuple l' :: rest) (.torch d) dev = .error .typeError) ∧
    (∀ size : List SizeArg, (∀ n, size ≠ [.int n] ∧ size ≠ [.tuple [n]]) → miscEmpty parse fresh size .obj "cpu" = .error .valueError) ∧
    (∀ (s : String) (size : List SizeArg), parse s = none → miscEmpty parse fresh size (.name s) dev = .error .typeError) ∧
    (∀ c : Content, dev ≠ "cpu" → miscFilled parse holdsNan fresh c [.tuple []] .obj dev = .error .typeError) := by
  refine ⟨fun d => rfl, fun d l l' rest => rfl, fun size h => ?_, fun s size h => ?_, fun c h => ?_⟩
  · simp only [miscEmpty, if_true]
    unfold objShape
    split
    · rename_i n; exact absurd rfl (h n).1
    · rename_i n; exact absurd rfl (h n).2
    · rfl
  · simp [miscEmpty, toTorch, h, Except.bind]
  · simp [miscFilled, scalarRequested, scalarOf, miscEmpty, h, Except.bind]

/-- C111: `as_tensor` with the dtype of objects gives an array of objects on the cpu, the given one if it is one already; another device is refused with a ValueError. -/
theorem C111_as_objects [DecidableEq Dt] (parse : String → Option Dt) (float64 : Dt) (fresh : ℕ) (x : Src Dt) (dev : Option String) :
    (dev = none ∨ dev = some "cpu" → ∃ r, miscAsTensor parse float64 fresh x (some .obj) dev = .ok r ∧ r.dtype = none ∧ (∀ a, x = .arr a → a.dtype = none → r = a) ∧
      (∀ len d, x = .other len d → r.shape = [len] ∧ r.device = "cpu" ∧ r.content = .given)) ∧
    (∀ d, dev = some d → d ≠ "cpu" → miscAsTensor parse float64 fresh x (some .obj) dev = .error .valueError) := by
  refine ⟨fun h => ?_, fun d h1 h2 => by subst h1; simp [miscAsTensor, h2]⟩
  have hn : ¬ (dev ≠ none ∧ dev ≠ some "cpu") := by rcases h with h | h <;> simp [h]
  cases x with
  | arr a =>
    by_cases ha : a.dtype = none
    · refine ⟨a, by simp only [miscAsTensor]; rw [if_neg hn, if_pos ha], ha, fun b hb _ => by cases hb; rfl, fun len d hh => by cases hh⟩
    · refine ⟨⟨fresh, [a.shape.headD 0], none, "cpu", a.content⟩, by simp only [miscAsTensor]; rw [if_neg hn, if_neg ha], rfl, fun b hb hb' => by cases hb; exact absurd hb' ha, fun len d hh => by cases hh⟩
  | other len d =>
    refine ⟨⟨fresh, [len], none, "cpu", .given⟩, by simp only [miscAsTensor]; rw [if_neg hn], rfl, fun b hb => (by cases hb), fun len' d' hh => by cases hh; exact ⟨rfl, rfl, rfl⟩⟩

/-! ### Non-vacuity -/

/-- A problem with solutions of length 4; dtypes are numbers. -/
def exSelf : Self ℕ := ⟨.torch 32, some (.torch 64), "cpu", some (some 4), some (some 7)⟩

/-- "float16" is 16. -/
def exParse (s : String) : Option ℕ := if s = "float16" then some 16 else none

/-- The integers are above 64. -/
def exNan (d : ℕ) : Bool := d ≤ 64

example : makeFilled exParse exNan 9 exSelf .nan { size := [.int 2], dtype := some (.torch 99) } none = .error .runtimeError := by decide
example : makeRandom exNan 9 exSelf { size := [.int 2], dtype := some (.torch 99) } none = .error .notImplementedError := by decide
example : makeFilled exParse exNan 9 exSelf .ones { numSolutions := some 3 } none = .ok (.arr ⟨9, [3, 4], some 32, "cpu", .ones⟩) := by decide
example : makeFilled exParse exNan 9 exSelf .nan { size := [.tuple []], useEval := true } none = .ok (.arr ⟨9, [], some 64, "cpu", .nan⟩) := by decide
example : makeFilled exParse exNan 9 exSelf .zeros { size := [.int 2, .int 5], dtype := some (.name "float16"), device := some "cuda:0" } none = .ok (.arr ⟨9, [2, 5], some 16, "cuda:0", .zeros⟩) := by
  decide
example : makeFilled exParse exNan 9 exSelf .zeros { } none = .error .typeError := by decide
example : makeRandom exNan 9 exSelf { numSolutions := some 3 } none = .ok (.arr ⟨9, [3, 4], some 32, "cpu", .random (some 7)⟩) := by decide
example : makeRandint 99 9 exSelf { size := [.int 3], generator := some none } none = .ok (.arr ⟨9, [3], some 99, "cpu", .random none⟩) := by decide
example : makeI exParse 9 exSelf none {} = .ok (.arr ⟨9, [4, 4], some 32, "cpu", .eye⟩) := by decide
example : WantedShape exSelf { numSolutions := some 3 } [3, 4] := .solutions 3 4 rfl rfl rfl

end EvoTorch.TensorMaker
