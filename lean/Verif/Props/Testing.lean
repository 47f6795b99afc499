import Verif.Model.Testing
import Mathlib.Tactic.NormNum
/-!
C123: the assertions of `evotorch.testing` pass exactly if what they assert is true.
-/
namespace EvoTorch.Testing
open EvoTorch

/-- Two numbers are the same up to the tolerances; NaN and infinities are close to themselves only. -/
def Near (rtol atol : ℚ) (nanOk : Bool) (a d : Flt ℚ) : Prop :=
  (a = .nan ∧ d = .nan ∧ nanOk = true) ∨ (a = .pinf ∧ d = .pinf) ∨ (a = .ninf ∧ d = .ninf) ∨ ∃ x y, a = .fin x ∧ d = .fin y ∧ |x - y| ≤ atol + rtol * |y|

theorem close_iff (rtol atol : ℚ) (nanOk : Bool) (a d : Flt ℚ) : close rtol atol nanOk a d = true ↔ Near rtol atol nanOk a d := by
  cases a <;> cases d <;> simp [close, Near]

/-- The shape and the numbers of an argument. -/
def shapeOf : Input → List ℕ
  | .array a => a.shape
  | .plain s _ => s
def dataOf : Input → List (Flt ℚ)
  | .array a => a.data
  | .plain _ d => d
/-- Integer and boolean arrays. -/
def isFloat : Input → Bool
  | .array a => a.kind == .float
  | .plain _ _ => true

theorem map_float (junk : Flt ℚ → ℚ) (l : List (Flt ℚ)) : l.map (castTo junk .float) = l := by
  induction l with
  | nil => rfl
  | cons a l ih => rw [List.map_cons, ih]; rfl

theorem toNumpy_float (junk : Flt ℚ → ℚ) (x : Input) : (toNumpy junk x (some .float)).data = dataOf x ∧ (toNumpy junk x (some .float)).shape = shapeOf x := by
  cases x <;> exact ⟨by simp [toNumpy, dataOf, map_float], rfl⟩

theorem toNumpy_none (junk : Flt ℚ → ℚ) (x : Input) : (toNumpy junk x none).data = dataOf x ∧ (toNumpy junk x none).shape = shapeOf x ∧ (isFloat x = true → (toNumpy junk x none).kind = .float) := by
  cases x <;> simp [toNumpy, dataOf, shapeOf, map_float, isFloat]

theorem zip_all {α β : Type} (f : α → β → Bool) : ∀ (l : List α) (m : List β), (List.zipWith f l m).all id = true ↔ ∀ p ∈ l.zip m, f p.1 p.2 = true
  | [], _ => by simp
  | _ :: _, [] => by simp
  | a :: l, b :: m => by
    rw [List.zipWith_cons_cons, List.all_cons, Bool.and_eq_true, zip_all f l m, List.zip_cons_cons, List.forall_mem_cons]
    rfl

/-! ### Closeness -/

/-- If the desired numbers are floating point numbers and the shapes are the same: the assertion passes exactly if every number is within the tolerance of the desired one, and an AssertionError is raised otherwise. Without tolerances it is refused. -/
theorem C123_allclose_partial (junk : Flt ℚ → ℚ) (actual desired : Input) (rtol atol : Option ℚ) (nanOk : Bool) (hf : isFloat desired = true) (hs : shapeOf actual = shapeOf desired) :
    (rtol = none ∧ atol = none → assertAllclose junk actual desired rtol atol nanOk = .error .otherError) ∧
    (¬ (rtol = none ∧ atol = none) →
      (assertAllclose junk actual desired rtol atol nanOk = .ok () ↔ ∀ p ∈ (dataOf actual).zip (dataOf desired), Near (rtol.getD 0) (atol.getD 0) nanOk p.1 p.2) ∧
      (assertAllclose junk actual desired rtol atol nanOk = .ok () ∨ assertAllclose junk actual desired rtol atol nanOk = .error .assertionError)) := by
  refine ⟨fun h => by simp [assertAllclose, h], fun h => ?_⟩
  obtain ⟨h1, h2, h3⟩ := toNumpy_none junk desired
  obtain ⟨h4, h5⟩ := toNumpy_float junk actual
  unfold assertAllclose
  rw [if_neg h]
  simp only [h3 hf]
  unfold npAllclose
  rw [h5, h2, if_pos hs, h4, h1]
  have := zip_all (close (rtol.getD 0) (atol.getD 0) nanOk) (dataOf actual) (dataOf desired)
  simp only [close_iff] at this
  split
  · rename_i h
    exact ⟨⟨fun _ => this.1 h, fun _ => rfl⟩, .inl rfl⟩
  · rename_i h
    exact ⟨⟨fun h2 => by (cases h2), fun h2 => absurd (this.2 h2) h⟩, .inr rfl⟩

example : assertAllclose (fun _ => 0) (.plain [2] [.fin 1, .nan]) (.plain [2] [.fin (11/10), .nan]) none (some (1/5)) true = .ok () ∧
    assertAllclose (fun _ => 0) (.plain [2] [.fin 1, .nan]) (.plain [2] [.fin (11/10), .nan]) none (some (1/50)) true = .error .assertionError := by decide +kernel

/-- Different shapes fail, unless one is a single number. -/
theorem C123_allclose_shapes (junk : Flt ℚ → ℚ) (actual desired : Input) (rtol atol : Option ℚ) (nanOk : Bool) (h : ¬ (rtol = none ∧ atol = none)) (hs : shapeOf actual ≠ shapeOf desired) (h1 : shapeOf actual ≠ []) (h2 : shapeOf desired ≠ []) :
    assertAllclose junk actual desired rtol atol nanOk = .error .assertionError := by
  have e1 : (toNumpy junk desired none).shape = shapeOf desired := (toNumpy_none junk desired).2.1
  have e2 : ∀ k, (toNumpy junk actual (some k)).shape = shapeOf actual := by intro k; cases actual <;> rfl
  unfold assertAllclose
  rw [if_neg h]
  simp only [npAllclose, e1, e2, hs, h1, h2, if_false]

/-- A single number on one side is compared with every number of the other side; the relative tolerance is always that of the desired number. -/
theorem C123_allclose_number_partial (junk : Flt ℚ → ℚ) (actual desired : Input) (rtol atol : Option ℚ) (nanOk : Bool) (hf : isFloat desired = true) (h : ¬ (rtol = none ∧ atol = none))
    (hs : shapeOf actual ≠ shapeOf desired) (h1 : shapeOf actual = [] ∨ shapeOf desired = []) :
    (assertAllclose junk actual desired rtol atol nanOk = .ok () ↔ ∀ a ∈ dataOf actual, ∀ d ∈ dataOf desired, Near (rtol.getD 0) (atol.getD 0) nanOk a d) ∧
    (assertAllclose junk actual desired rtol atol nanOk = .ok () ∨ assertAllclose junk actual desired rtol atol nanOk = .error .assertionError) := by
  obtain ⟨e1, e2, e3⟩ := toNumpy_none junk desired
  obtain ⟨e4, e5⟩ := toNumpy_float junk actual
  unfold assertAllclose
  rw [if_neg h]
  simp only [e3 hf]
  unfold npAllclose
  rw [e5, e2, if_neg hs, e4, e1]
  have h2 : ∀ P : Bool, ((if P = true then Except.ok () else Except.error PyErr.assertionError : Except PyErr Unit) = .ok () ↔ P = true) ∧
      ((if P = true then Except.ok () else Except.error PyErr.assertionError : Except PyErr Unit) = .ok () ∨ (if P = true then Except.ok () else Except.error PyErr.assertionError : Except PyErr Unit) = .error .assertionError) := by
    intro P; cases P <;> simp
  by_cases ha : shapeOf actual = []
  · rw [if_pos ha]
    refine ⟨(h2 _).1.trans ?_, (h2 _).2⟩
    simp only [List.all_eq_true, close_iff]
    exact ⟨fun k a hA d hD => k d hD a hA, fun k d hD a hA => k a hA d hD⟩
  · rw [if_neg ha, if_pos (h1.resolve_left ha)]
    refine ⟨(h2 _).1.trans ?_, (h2 _).2⟩
    simp only [List.all_eq_true, close_iff]

example : assertAllclose (fun _ => 0) (.plain [2] [.fin 1, .fin 2]) (.plain [] [.fin 2]) (some (1/2)) none true = .ok () ∧
    assertAllclose (fun _ => 0) (.plain [] [.fin 2]) (.plain [2] [.fin 1, .fin 2]) (some (1/2)) none true = .error .assertionError := by decide +kernel

/-- If the desired numbers are integers then the actual ones are rounded towards zero before they are compared: 1.9 passes for 1 with no tolerance. -/
theorem C123_violated_allclose (junk : Flt ℚ → ℚ) : ∃ actual desired : Input, dataOf actual = [.fin (19/10)] ∧ dataOf desired = [.fin 1] ∧ assertAllclose junk actual desired (some 0) (some 0) true = .ok () := by
  refine ⟨.plain [1] [.fin (19/10)], .array ⟨.int, [1], [.fin 1]⟩, rfl, rfl, ?_⟩
  have : trunc (19/10) = 1 := by decide +kernel
  simp [assertAllclose, toNumpy, npAllclose, castTo, this, close]

/-- If the desired values are truth values then every actual number other than zero, NaN included, counts as true: it passes for true and not for false. -/
theorem C123_violated_allclose_bool (junk : Flt ℚ → ℚ) (a : Flt ℚ) (want : Bool) :
    assertAllclose junk (.plain [1] [a]) (.array ⟨.bool, [1], [.fin (if want then 1 else 0)]⟩) (some 0) (some 0) true = .ok () ↔ (a ≠ .fin 0 ↔ want = true) := by
  cases want <;> by_cases h : a = .fin 0 <;> simp [assertAllclose, toNumpy, npAllclose, castTo, close, h]

/-! ### Intervals -/

/-- The bounds of the elements: one for all, or one for each. -/
def boundAt (b : Input) (n : ℕ) : List (Flt ℚ) := if shapeOf b = [] then List.replicate n ((dataOf b).headD .nan) else dataOf b

/-- For floating point numbers: the assertion passes exactly if every number is a number within its bounds, extended by the tolerance. -/
theorem C123_between_partial (junk : Flt ℚ → ℚ) (x lb ub : Input) (atol : Option ℚ) (hf : isFloat x = true) (hx : shapeOf x ≠ []) (hl : shapeOf lb = [] ∨ shapeOf lb = shapeOf x) (hu : shapeOf ub = [] ∨ shapeOf ub = shapeOf x) :
    (assertAlmostBetween junk x lb ub atol = .ok () ↔ (∀ p ∈ (dataOf x).zip (boundAt lb (dataOf x).length), (p.2.sub (.fin (atol.getD 0))).le p.1 = true) ∧ ∀ p ∈ (dataOf x).zip (boundAt ub (dataOf x).length), p.1.le (p.2.add (.fin (atol.getD 0))) = true) ∧
    (assertAlmostBetween junk x lb ub atol = .ok () ∨ assertAlmostBetween junk x lb ub atol = .error .assertionError) := by
  obtain ⟨h1, h2, h3⟩ := toNumpy_none junk x
  have hsp : ∀ b : Input, (shapeOf b = [] ∨ shapeOf b = shapeOf x) → spread (toNumpy junk b none) (toNumpy junk x none) = .ok (boundAt b (dataOf x).length) := by
    intro b hb
    obtain ⟨k1, k2, _⟩ := toNumpy_none junk b
    unfold spread boundAt
    rw [k1, k2, h2, h1]
    rcases hb with hb | hb
    · rw [hb, if_neg (Ne.symm hx)]
      simp
    · rw [hb]
      simp [hx]
  unfold assertAlmostBetween
  simp only [hsp lb hl, hsp ub hu, h3 hf, h1]
  simp only [map_float, zip_all]
  split
  · rename_i h
    exact ⟨⟨fun _ => h, fun _ => rfl⟩, .inl rfl⟩
  · rename_i h
    exact ⟨⟨fun h2 => by (cases h2), fun h2 => absurd h2 h⟩, .inr rfl⟩

/-- So a NaN among the numbers fails, and finite numbers are compared with the extended interval. -/
theorem C123_between_numbers (x l u t : ℚ) : (((Flt.fin l).sub (.fin t)).le (.fin x) = true ↔ l - t ≤ x) ∧ ((Flt.fin x).le ((Flt.fin u).add (.fin t)) = true ↔ x ≤ u + t) ∧ ((Flt.fin l).sub (.fin t)).le .nan = false := by
  simp [Flt.sub, Flt.add, Flt.le]

example : assertAlmostBetween (fun _ => 0) (.plain [2] [.fin 1, .fin 2]) (.plain [] [.fin (11/10)]) (.plain [2] [.fin 1, .fin 2]) (some (1/5)) = .ok () ∧
    assertAlmostBetween (fun _ => 0) (.plain [2] [.fin 1, .nan]) (.plain [] [.fin 0]) (.plain [] [.fin 3]) none = .error .assertionError := by decide +kernel

/-- For integers the bounds are rounded towards zero first: 0 passes for the interval from 0.5 to 2. -/
theorem C123_violated_between (junk : Flt ℚ → ℚ) : ∃ x lb ub : Input, dataOf x = [.fin 0] ∧ dataOf lb = [.fin (1/2)] ∧ dataOf ub = [.fin 2] ∧ assertAlmostBetween junk x lb ub none = .ok () := by
  refine ⟨.array ⟨.int, [1], [.fin 0]⟩, .plain [1] [.fin (1/2)], .plain [1] [.fin 2], rfl, rfl, rfl, ?_⟩
  have h1 : trunc (1/2) = 0 := by decide +kernel
  have h2 : trunc 2 = 2 := by decide +kernel
  norm_num [assertAlmostBetween, toNumpy, spread, castTo, h1, h2, Flt.sub, Flt.add, Flt.le]

/-! ### One value -/

/-- For floating point numbers: every number is within the tolerance of the value. -/
theorem C123_eachclose_partial (junk : Flt ℚ → ℚ) (x : Input) (value : ℚ) (rtol atol : Option ℚ) (hf : isFloat x = true) (h : ¬ (rtol = none ∧ atol = none)) :
    (assertEachclose junk x value rtol atol = .ok () ↔ ∀ a ∈ dataOf x, ∃ y, a = .fin y ∧ |y - value| ≤ atol.getD 0 + rtol.getD 0 * |value|) ∧
    (assertEachclose junk x value rtol atol = .ok () ∨ assertEachclose junk x value rtol atol = .error .assertionError) := by
  obtain ⟨h1, h2, h3⟩ := toNumpy_none junk x
  have := (C123_allclose_partial junk (.array (toNumpy junk x none)) (.array ⟨(toNumpy junk x none).kind, (toNumpy junk x none).shape, (toNumpy junk x none).data.map fun _ => castTo junk (toNumpy junk x none).kind (.fin value)⟩) rtol atol true
    (by simp [isFloat, h3 hf]) rfl).2 h
  unfold assertEachclose
  refine ⟨?_, this.2⟩
  rw [this.1]
  rw [show ∀ a : Arr, dataOf (.array a) = a.data from fun _ => rfl, show ∀ a : Arr, dataOf (.array a) = a.data from fun _ => rfl]
  simp only [h1, h3 hf, castTo]
  generalize dataOf x = l
  clear this h1
  induction l with
  | nil => simp
  | cons a l ih =>
    simp only [List.map_cons, List.zip_cons_cons, List.forall_mem_cons, ih]
    refine and_congr_left fun _ => ?_
    cases a <;> simp [Near]

/-- For integers the value is rounded towards zero first: an array of ones passes for 1.5. -/
theorem C123_violated_eachclose (junk : Flt ℚ → ℚ) : ∃ x : Input, dataOf x = [.fin 1, .fin 1] ∧ assertEachclose junk x (3/2) (some 0) (some 0) = .ok () := by
  refine ⟨.array ⟨.int, [2], [.fin 1, .fin 1]⟩, rfl, ?_⟩
  have h1 : trunc (3/2) = 1 := by decide +kernel
  have h2 : trunc 1 = 1 := by decide +kernel
  simp [assertEachclose, assertAllclose, toNumpy, npAllclose, castTo, h1, h2, close]

/-! ### Shapes and dtypes -/

/-- The shape is compared with a tuple, or with one number for vectors; a list never matches. -/
theorem C123_shape (shape : List ℕ) (given : GivenShape) : (assertShape shape given = .ok () ↔ (∃ n, given = .int n ∧ shape = [n]) ∨ given = .tuple shape) ∧ (assertShape shape given = .ok () ∨ assertShape shape given = .error .assertionError) := by
  cases given with
  | int n => by_cases h : shape = [n] <;> simp [assertShape, h]
  | tuple s =>
    by_cases h : shape = s
    · subst h; simp [assertShape]
    · simp [assertShape, h, Ne.symm h]
  | list s => simp [assertShape]

example : assertShape [3, 2] (.tuple [3, 2]) = .ok () ∧ assertShape [3, 2] (.list [3, 2]) = .error .assertionError ∧ assertShape [3] (.int 3) = .ok () := by decide

/-- If torch dtypes have different counterparts in numpy, then the assertion passes exactly for the same dtype, be it given in the terms of torch or of numpy. -/
theorem C123_dtype {T N : Type} [DecidableEq N] (toNp : T → Except PyErr N) (object : N) (hinj : ∀ s t n, toNp s = .ok n → toNp t = .ok n → s = t) (t : T) (n : N) (ht : toNp t = .ok n) :
    (∀ s m, toNp s = .ok m → (assertDtype toNp object (.torch t) (.torch s) = .ok () ↔ s = t)) ∧ (∀ m, assertDtype toNp object (.torch t) (.numpy m) = .ok () ↔ m = n) ∧
    (assertDtype toNp object (.numpy object) .any = .ok ()) := by
  refine ⟨fun s m hm => ?_, fun m => ?_, ?_⟩
  · simp only [assertDtype, npDtype, ht, hm]
    constructor
    · intro h
      split at h
      · rename_i h2; subst h2; exact hinj s t m hm ht
      · cases h
    · rintro rfl
      rw [ht] at hm
      cases hm
      simp
  · simp only [assertDtype, npDtype, ht]
    split <;> simp_all
  · simp [assertDtype, npDtype]

end EvoTorch.Testing
