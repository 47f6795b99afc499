import Verif.Model.TensorUtil
import Mathlib.Tactic.Linarith
import Mathlib.Tactic.NormNum

/-!
C136: the tensor utilities.
-/

namespace EvoTorch.TensorUtil
open EvoTorch

/-- What `x` becomes in a dtype: itself in a floating-point dtype, the integer next to it towards zero in an integer dtype. -/
def InDtype (d : DT) (x y : ℚ) : Prop :=
  match d with
  | .float _ => y = x
  | .int _ => ∃ n : ℤ, y = n ∧ (0 ≤ x → (n : ℚ) ≤ x ∧ x < n + 1) ∧ (x < 0 → x ≤ n ∧ (n : ℚ) - 1 < x)

theorem conv_spec (d : DT) (x : ℚ) : InDtype d x (conv d x) := by
  cases d with
  | float b => rfl
  | int b =>
    by_cases h : 0 ≤ x
    · refine ⟨⌊x⌋, by simp [conv, h], fun _ => ⟨Int.floor_le x, Int.lt_floor_add_one x⟩, fun h' => by linarith⟩
    · refine ⟨⌈x⌉, by simp [conv, h], fun h' => absurd h' h, fun _ => ⟨Int.le_ceil x, by linarith [Int.ceil_lt_add_one x]⟩⟩

/-- The elements, the shape and the place of what a user gives. -/
def Data.elems : Data → List ℚ
  | .tensor t => t.data
  | .scalar x => [x]
  | .seq xs => xs
/-- See `Data.elems`. -/
def Data.shape : Data → List ℕ
  | .tensor t => t.shape
  | .scalar _ => []
  | .seq xs => [xs.length]
/-- See `Data.elems`. -/
def Data.device : Data → String
  | .tensor t => t.device
  | _ => "cpu"

/-- A tensor has as many elements as its shape says, and they are elements of its dtype. -/
def Proper (t : T) : Prop := t.data.length = t.shape.prod ∧ ∀ v ∈ t.data, conv t.dtype v = v

/-- A tensor that is given is a proper one. -/
def Data.Proper : Data → Prop
  | .tensor t => TensorUtil.Proper t
  | _ => True

theorem asTensor_spec (fresh : ℕ) (x : Data) (d : DT) (dev : Option String) (hx : x.Proper) :
    (asTensor fresh x d dev).shape = x.shape ∧ (asTensor fresh x d dev).dtype = d ∧ (asTensor fresh x d dev).device = dev.getD x.device ∧
    (asTensor fresh x d dev).data = x.elems.map (conv d) := by
  cases x with
  | scalar v => simp [asTensor, Data.shape, Data.device, Data.elems]
  | seq vs => simp [asTensor, Data.shape, Data.device, Data.elems]
  | tensor t =>
    simp only [asTensor, Data.shape, Data.device, Data.elems]
    split
    · rename_i h
      obtain ⟨h1, h2⟩ := h
      refine ⟨rfl, h1, ?_, ?_⟩
      · rcases h2 with rfl | rfl <;> rfl
      · subst h1
        conv_lhs => rw [← List.map_id t.data]
        exact List.map_congr_left fun v hv => (hx.2 v hv).symm
    · exact ⟨rfl, rfl, rfl, rfl⟩

/-- **C136.** `ensure_tensor_length_and_dtype` succeeds exactly for a number and for a vector of the right length (a ValueError otherwise). The result has the requested dtype, is on the
requested device (or where it was) and has the given elements in that dtype; it is a vector of the requested length, except that a number stays one if scalars are allowed. -/
theorem C136_ensure (fresh : ℕ) (x : Data) (hx : x.Proper) (n : ℕ) (d : DT) (allow : Bool) (dev : Option String) :
    (¬ (x.shape = [] ∨ x.shape = [n]) → ensureLength fresh x n d allow dev = .error .valueError) ∧
    (x.shape = [] ∨ x.shape = [n] → ∃ r, ensureLength fresh x n d allow dev = .ok r ∧ r.dtype = d ∧ r.device = dev.getD x.device ∧
      (x.shape = [n] → r.shape = [n] ∧ List.Forall₂ (InDtype d) x.elems r.data) ∧
      (x.shape = [] → ∃ v w, x.elems = [v] ∧ InDtype d v w ∧
        ((allow = true ∧ r.shape = [] ∧ r.data = [w]) ∨ (allow = false ∧ r.shape = [n] ∧ r.data = List.replicate n w)))) := by
  obtain ⟨h1, h2, h3, h4⟩ := asTensor_spec fresh x d dev hx
  simp only [ensureLength, h1]
  have hF : ∀ l : List ℚ, List.Forall₂ (InDtype d) l (l.map (conv d)) := by
    intro l
    induction l with
    | nil => exact List.Forall₂.nil
    | cons a l ih => exact List.Forall₂.cons (conv_spec d a) ih
  constructor
  · intro h
    push Not at h
    rw [if_neg (by simpa using h.1)]
    rw [if_pos]
    rcases hs : x.shape with _ | ⟨a, _ | ⟨b, l⟩⟩
    · exact absurd hs h.1
    · right; intro h'; simp at h'; exact h.2 (by rw [hs, h'])
    · left; simp
  · intro h
    rcases h with h | h
    · have hone : ∃ v, x.elems = [v] := by
        cases x with
        | scalar v => exact ⟨v, rfl⟩
        | seq vs => simp [Data.shape] at h
        | tensor t =>
          have hl := hx.1
          simp only [Data.shape] at h
          rw [h] at hl
          exact List.length_eq_one_iff.1 (by simpa [Data.elems] using hl)
      obtain ⟨v, hv⟩ := hone
      rw [h]
      simp only [List.length_nil, if_true]
      cases allow with
      | true =>
        refine ⟨_, rfl, h2, h3, by simp, fun _ => ⟨v, conv d v, hv, conv_spec d v, Or.inl ⟨rfl, by rw [h1, h], ?_⟩⟩⟩
        rw [h4, hv]; rfl
      | false =>
        refine ⟨_, rfl, h2, h3, by simp, fun _ => ⟨v, conv d v, hv, conv_spec d v, Or.inr ⟨rfl, rfl, ?_⟩⟩⟩
        simp only [repeatScalar]
        rw [h4, hv]
        simp
    · rw [h]
      simp only [List.length_cons, List.length_nil, Nat.zero_add, Nat.one_ne_zero, if_false, ne_eq, not_true_eq_false, List.head?_cons, or_self]
      refine ⟨_, rfl, h2, h3, fun _ => ⟨by rw [h1, h], ?_⟩, by simp⟩
      rw [h4]
      exact hF _

/-- **C136.** "If the given object is already a tensor conforming to the desired length, dtype, and device, the object will be returned as it is." Everything else becomes a new tensor. -/
theorem C136_ensure_identity (fresh : ℕ) (x : Data) (n : ℕ) (d : DT) (allow : Bool) (dev : Option String) :
    (∀ t, x = .tensor t → t.shape = [n] → t.dtype = d → (dev = none ∨ dev = some t.device) → ensureLength fresh x n d allow dev = .ok t) ∧
    (∀ r, ensureLength fresh x n d allow dev = .ok r → r.ident = fresh ∨ ∃ t, x = .tensor t ∧ r = t ∧ t.dtype = d ∧ (dev = none ∨ dev = some t.device)) := by
  constructor
  · rintro t rfl h1 h2 h3
    simp [ensureLength, asTensor, h1, h2, h3]
  · intro r hr
    have key : (asTensor fresh x d dev).ident = fresh ∨ ∃ t, x = .tensor t ∧ asTensor fresh x d dev = t ∧ t.dtype = d ∧ (dev = none ∨ dev = some t.device) := by
      cases x with
      | scalar v => exact Or.inl rfl
      | seq v => exact Or.inl rfl
      | tensor t =>
        simp only [asTensor]
        split
        · rename_i h; exact Or.inr ⟨t, rfl, rfl, h.1, h.2⟩
        · exact Or.inl rfl
    simp only [ensureLength] at hr
    split at hr
    · split at hr
      · cases hr; exact key
      · cases hr; exact Or.inl rfl
    · split at hr
      · cases hr
      · cases hr; exact key

/-- **C136.** The method of problems, distributions and searchers fills in the solution length, the dtype (the one for evaluations if asked for) and the device of its object. -/
theorem C136_method (fresh : ℕ) (self : Self) (x : Data) (length : Option ℕ) (dtype : Option DT) (allow : Bool) (device : Option String) (useEval : Bool) :
    (∀ n d, (length = some n ∨ (length = none ∧ self.solutionLength = some n)) →
      ((dtype = some d ∧ useEval = false) ∨ (dtype = none ∧ useEval = true ∧ self.evalDtype = some d) ∨ (dtype = none ∧ useEval = false ∧ self.dtype = d)) →
      methodEnsure fresh self x length dtype allow device useEval = ensureLength fresh x n d allow (some (device.getD self.device))) ∧
    (length = none → self.solutionLength = none → methodEnsure fresh self x length dtype allow device useEval = .error .attributeError) ∧
    (∀ n, (length = some n ∨ (length = none ∧ self.solutionLength = some n)) → dtype ≠ none → useEval = true →
      methodEnsure fresh self x length dtype allow device useEval = .error .valueError) := by
  have hlen : ∀ n, (length = some n ∨ (length = none ∧ self.solutionLength = some n)) → (length <|> self.solutionLength) = some n := by
    rintro n (rfl | ⟨rfl, h⟩)
    · rfl
    · exact h
  refine ⟨fun n d hn hd => ?_, fun h1 h2 => ?_, fun n hn hd hu => ?_⟩
  · simp only [methodEnsure, hlen n hn]
    rcases hd with ⟨rfl, rfl⟩ | ⟨rfl, rfl, h⟩ | ⟨rfl, rfl, rfl⟩
    · rfl
    · simp only [h]
    · rfl
  · subst h1
    have : (none <|> self.solutionLength) = none := h2
    simp only [methodEnsure, this]
  · simp only [methodEnsure, hlen n hn]
    cases dtype with
    | none => exact absurd rfl hd
    | some d => subst hu; rfl

/-! ### clip_tensor -/

/-- The bound for column `j`. -/
def Bound.at (b : Bound) (j : ℕ) : ℚ :=
  match b with
  | .scalar x => x
  | .vector [x] => x
  | .vector xs => xs.getD j 0

/-- A bound fits: a number, one number, or as many as there are columns. -/
def Fits (x : T) : Bound → Prop
  | .scalar _ => True
  | .vector xs => xs.length = 1 ∨ x.shape.getLast? = some xs.length

/-- The column of an element. -/
def column (x : T) (i : ℕ) : ℕ := i % (x.shape.getLast?.getD 1)

/-- A bound for an element of `x`, in the dtype of `x`; `none`: no bound. -/
def boundAt (x : T) (b : Option Bound) (i : ℕ) : Option ℚ := b.map fun b => conv x.dtype (b.at (column x i))

/-- `v` clipped by bounds that may be missing: the upper bound is applied last. -/
def clipped (v : ℚ) (lb ub : Option ℚ) : ℚ :=
  let w := match lb with | some l => max v l | none => v
  match ub with | some u => min w u | none => w

theorem elementwise_spec (fresh : ℕ) (f : ℚ → ℚ → ℚ) (x : T) (b : Bound) (hb : Fits x b) :
    ∃ r, elementwise fresh f x b = .ok r ∧ r.ident = fresh ∧ r.shape = x.shape ∧ r.dtype = x.dtype ∧ r.device = x.device ∧ r.data.length = x.data.length ∧
      ∀ i v, x.data[i]? = some v → r.data[i]? = some (f v (conv x.dtype (b.at (column x i)))) := by
  cases b with
  | scalar b => exact ⟨_, rfl, rfl, rfl, rfl, rfl, by simp, fun i v hv => by simp [hv, Bound.at]⟩
  | vector bs =>
    simp only [Fits] at hb
    refine ⟨_, if_pos hb, rfl, rfl, rfl, rfl, by simp, fun i v hv => ?_⟩
    simp only [List.getElem?_mapIdx, hv, Option.map_some, Option.some.injEq]
    congr 2
    rcases hb with hb | hb
    · match bs, hb with
      | [b], _ => simp [Bound.at, Nat.mod_one]
    · match bs with
      | [b] => simp [Bound.at, Nat.mod_one]
      | [] => simp [Bound.at]
      | b :: b' :: bs => simp [Bound.at, column, hb]

theorem applyBound_spec (fresh : ℕ) (f : ℚ → ℚ → ℚ) (x : T) (b : Option Bound) (hb : ∀ c, b = some c → Fits x c) :
    ∃ r, applyBound fresh f x b = .ok r ∧ ((b = none ∧ r = x) ∨ (b ≠ none ∧ r.ident = fresh)) ∧ r.shape = x.shape ∧ r.dtype = x.dtype ∧ r.device = x.device ∧
      r.data.length = x.data.length ∧ ∀ i v, x.data[i]? = some v → r.data[i]? = some (match boundAt x b i with | some c => f v c | none => v) := by
  cases b with
  | none => exact ⟨x, rfl, Or.inl ⟨rfl, rfl⟩, rfl, rfl, rfl, rfl, fun i v hv => hv⟩
  | some b =>
    obtain ⟨r, a1, a2, a3, a4, a5, a6, a7⟩ := elementwise_spec fresh f x b (hb b rfl)
    exact ⟨r, a1, Or.inr ⟨by simp, a2⟩, a3, a4, a5, a6, a7⟩

/-- **C136.** `clip_tensor` gives a tensor of the same shape, dtype and device whose elements are the given ones clipped by the bounds in the dtype of the tensor; an upper bound below
the lower bound wins. It is the given tensor itself exactly if there are no bounds and no copy is asked for, and a new tensor otherwise. -/
theorem C136_clip (fresh : ℕ) (x : T) (hfresh : x.ident < fresh) (lb ub : Option Bound) (copy : Bool) (hlb : ∀ b, lb = some b → Fits x b) (hub : ∀ b, ub = some b → Fits x b) :
    ∃ r, clipTensor fresh x lb ub copy = .ok r ∧ r.shape = x.shape ∧ r.dtype = x.dtype ∧ r.device = x.device ∧ r.data.length = x.data.length ∧
      (∀ i v, x.data[i]? = some v → r.data[i]? = some (clipped v (boundAt x lb i) (boundAt x ub i))) ∧
      ((lb = none ∧ ub = none ∧ copy = false) → r = x) ∧ (¬ (lb = none ∧ ub = none ∧ copy = false) → fresh ≤ r.ident) := by
  obtain ⟨r1, e1, n1, s1, d1, v1, l1, g1⟩ := applyBound_spec fresh max x lb hlb
  have hub' : ∀ b, ub = some b → Fits r1 b := by
    intro b hb
    have := hub b hb
    cases b with
    | scalar _ => trivial
    | vector xs => simpa [Fits, s1] using this
  obtain ⟨r2, e2, n2, s2, d2, v2, l2, g2⟩ := applyBound_spec (fresh + 1) min r1 ub hub'
  have hg : ∀ i v, x.data[i]? = some v → r2.data[i]? = some (clipped v (boundAt x lb i) (boundAt x ub i)) := by
    intro i v hv
    rw [g2 i _ (g1 i v hv)]
    have : boundAt r1 ub i = boundAt x ub i := by simp [boundAt, column, s1, d1]
    rw [this]
    rfl
  simp only [clipTensor, bind, Except.bind, e1, e2]
  rcases n1 with ⟨rfl, rfl⟩ | ⟨h1, i1⟩
  · rcases n2 with ⟨rfl, rfl⟩ | ⟨h2, i2⟩
    · cases copy with
      | true =>
        simp only [decide_true, Bool.and_self, if_true]
        exact ⟨_, rfl, rfl, rfl, rfl, rfl, hg, by simp, by simp⟩
      | false => exact ⟨_, rfl, rfl, rfl, rfl, rfl, hg, by simp, by simp⟩
    · have hne : ¬ (r2.ident = r1.ident) := by omega
      simp only [hne, decide_false, Bool.and_false, Bool.false_eq_true, if_false]
      exact ⟨r2, rfl, s2, d2, v2, l2, hg, fun h => absurd h.2.1 h2, fun _ => by omega⟩
  · have hne : ¬ (r2.ident = x.ident) := by
      rcases n2 with ⟨-, rfl⟩ | ⟨-, i2⟩ <;> omega
    simp only [hne, decide_false, Bool.and_false, Bool.false_eq_true, if_false]
    refine ⟨r2, rfl, by rw [s2, s1], by rw [d2, d1], by rw [v2, v1], by rw [l2, l1], hg, fun h => absurd h.1 h1, fun _ => ?_⟩
    rcases n2 with ⟨-, rfl⟩ | ⟨-, i2⟩ <;> omega

/-- **C136.** What clipping by bounds means: within the bounds if they are in order, unchanged if already within them, and the upper bound if they are out of order. -/
theorem C136_clipped (v : ℚ) (lb ub : Option ℚ) :
    (∀ u, ub = some u → clipped v lb ub ≤ u) ∧ (∀ l, lb = some l → (∀ u, ub = some u → l ≤ u) → l ≤ clipped v lb ub) ∧
    ((∀ l, lb = some l → l ≤ v) → (∀ u, ub = some u → v ≤ u) → clipped v lb ub = v) ∧ (∀ l u, lb = some l → ub = some u → u < l → clipped v lb ub = u) := by
  cases lb with
  | none => cases ub <;> simp [clipped]
  | some l =>
    cases ub with
    | none => simp [clipped]
    | some u =>
      simp only [clipped, Option.some.injEq, forall_eq']
      refine ⟨min_le_right _ _, fun h => le_min (le_max_right _ _) h, fun h1 h2 => ?_, ?_⟩
      · rw [max_eq_left h1, min_eq_left h2]
      · rintro _ _ rfl rfl h
        exact min_eq_right (le_trans h.le (le_max_right _ _))

/-- **C136 (partial).** For a tensor with a floating-point dtype the bounds are the given ones: every element of the result is within them. Missing: integer dtypes, see below. -/
theorem C136_clip_bounds_partial (fresh : ℕ) (x : T) (hfresh : x.ident < fresh) (bits : ℕ) (hd : x.dtype = .float bits) (lb ub : Option Bound) (copy : Bool)
    (hlb : ∀ b, lb = some b → Fits x b) (hub : ∀ b, ub = some b → Fits x b) (r : T) (hr : clipTensor fresh x lb ub copy = .ok r) (i : ℕ) (w : ℚ) (hw : r.data[i]? = some w) :
    (∀ b, ub = some b → w ≤ b.at (column x i)) ∧ (∀ a, lb = some a → (∀ b, ub = some b → a.at (column x i) ≤ b.at (column x i)) → a.at (column x i) ≤ w) := by
  obtain ⟨r', e, -, -, -, hl, hg, -⟩ := C136_clip fresh x hfresh lb ub copy hlb hub
  rw [hr] at e; cases e
  have hi : i < x.data.length := by
    rw [← hl]; exact (List.getElem?_eq_some_iff.1 hw).1
  have := hg i _ (List.getElem?_eq_getElem hi)
  rw [hw] at this
  simp only [Option.some.injEq] at this
  obtain ⟨c1, c2, -, -⟩ := C136_clipped (x.data[i]) (boundAt x lb i) (boundAt x ub i)
  rw [← this] at c1 c2
  constructor
  · rintro b rfl
    exact c1 _ (by simp [boundAt, hd, conv])
  · rintro a rfl h
    refine c2 _ (by simp [boundAt, hd, conv]) ?_
    intro u hu
    cases ub with
    | none => simp [boundAt] at hu
    | some b => simp only [boundAt, hd, conv, Option.map_some, Option.some.injEq] at hu; rw [← hu]; exact h b rfl

/-- **C136 (violated: integer tensors).** A fractional lower bound is truncated to the dtype of an integer tensor, so that elements below it remain. -/
theorem C136_violated_clip_integer (fresh : ℕ) (hf : 0 < fresh) :
    ∃ r, clipTensor fresh ⟨0, [1], .int 64, "cpu", [0]⟩ (some (.scalar (1 / 2))) none true = .ok r ∧ r.data = [0] ∧ (0 : ℚ) < 1 / 2 := by
  have h : ¬ fresh = 0 := by omega
  have h3 : conv (.int 64) (1 / 2) = 0 := by decide +kernel
  refine ⟨⟨fresh, [1], .int 64, "cpu", [0]⟩, ?_, rfl, by norm_num⟩
  simp only [clipTensor, bind, Except.bind, applyBound, elementwise, h3, List.map_cons, List.map_nil, max_self, h, decide_false, Bool.and_false, Bool.false_eq_true, if_false]

/-! ### empty_tensor_like -/

/-- **C136.** From a tensor: the requested shape, or the source's shape with another length, or the source's shape; the requested dtype and device or those of the source. -/
theorem C136_empty_like_tensor (t : T) (shape : Option Shape) (length : Option ℕ) (dtype : Option Dt) (device : Option String) (r : Empty) :
    emptyLike (.tensor t) shape length dtype device = .ok r ↔
      ∃ s d, ((length = none ∧ shape = none ∧ s = t.shape) ∨ (length = none ∧ ∃ k, shape = some (.num k) ∧ s = [k]) ∨ (length = none ∧ shape = some (.seq s)) ∨
          (shape = none ∧ ∃ k n rest, length = some k ∧ t.shape = n :: rest ∧ s = k :: rest)) ∧
        ((dtype = none ∧ d = t.dtype) ∨ dtype = some (.numeric d)) ∧ r = .tensor s d (device.getD t.device) := by
  have hdt : ∀ s, emptyOf t s dtype device = .ok r ↔ ∃ d, ((dtype = none ∧ d = t.dtype) ∨ dtype = some (.numeric d)) ∧ r = .tensor s d (device.getD t.device) := by
    intro s
    match dtype with
    | none => simp [emptyOf, eq_comm]
    | some .object => simp [emptyOf]
    | some (.numeric d) => simp [emptyOf, eq_comm]
  simp only [emptyLike]
  match length, shape with
  | none, none => simp [newShape, Except.bind, hdt]
  | none, some (.num k) => simp [newShape, Except.bind, hdt]
  | none, some (.seq l) => simp [newShape, Except.bind, hdt]
  | some k, some sh => simp [newShape, Except.bind]
  | some k, none =>
    cases ht : t.shape with
    | nil => simp [newShape, ht, Except.bind]
    | cons n rest => simp [newShape, ht, Except.bind, hdt]

/-- **C136 (partial).** From an object array: the requested length, a requested shape with one number, or the source's length; other devices and dtypes are refused. Missing: a number as `shape`, see
below. -/
theorem C136_empty_like_objects_partial (n : ℕ) (shape : Option Shape) (length : Option ℕ) (dtype : Option Dt) (device : Option String) (hs : ∀ k, shape ≠ some (.num k)) (r : Empty) :
    emptyLike (.objects n) shape length dtype device = .ok r ↔
      (device = none ∨ device = some "cpu") ∧ (dtype = none ∨ dtype = some .object) ∧
      ∃ k, r = .objects k ∧ ((length = some k ∧ shape = none) ∨ (length = none ∧ shape = some (.seq [k])) ∨ (length = none ∧ shape = none ∧ k = n)) := by
  have hkey : ∀ k, (objectLength n shape length = .ok (some k)) ↔ ((length = some k ∧ shape = none) ∨ (length = none ∧ shape = some (.seq [k])) ∨ (length = none ∧ shape = none ∧ k = n)) := by
    intro k
    match length, shape with
    | some j, none => simp [objectLength]
    | none, some (.num _) => simp [objectLength]
    | none, some (.seq []) => simp [objectLength]
    | none, some (.seq [j]) => simp [objectLength]
    | none, some (.seq (_ :: _ :: _)) => simp [objectLength]
    | none, none => simp [objectLength, eq_comm]
    | some _, some _ => simp [objectLength]
  have hno : objectLength n shape length ≠ .ok none := by
    match length, shape with
    | some j, none => simp [objectLength]
    | none, some (.num k) => exact absurd rfl (hs k)
    | none, some (.seq []) => simp [objectLength]
    | none, some (.seq [j]) => simp [objectLength]
    | none, some (.seq (_ :: _ :: _)) => simp [objectLength]
    | none, none => simp [objectLength]
    | some _, some _ => simp [objectLength]
  simp only [emptyLike]
  constructor
  · intro h
    cases ho : objectLength n shape length with
    | error e => rw [ho] at h; cases h
    | ok m =>
      rw [ho] at h
      simp only [Except.bind] at h
      split at h
      · cases h
      · rename_i h1
        split at h
        · cases h
        · rename_i h2
          cases m with
          | none => exact absurd ho hno
          | some k =>
            cases h
            refine ⟨by tauto, by tauto, k, rfl, (hkey k).1 ho⟩
  · rintro ⟨h1, h2, k, rfl, h3⟩
    rw [(hkey k).2 h3]
    simp only [Except.bind]
    rw [if_neg (by tauto), if_neg (by tauto)]

/-- **C136.** Length and shape together, a length for a tensor without dimensions, and a shape that does not have one dimension for an object array are ValueErrors; the dtype of objects for a tensor, and a source which is neither a tensor
nor an object array, are TypeErrors. -/
theorem C136_empty_like_refused (t : T) (n k : ℕ) (sh : Shape) (shape : Option Shape) (length : Option ℕ) (dtype : Option Dt) (device : Option String) :
    emptyLike (.tensor t) (some sh) (some k) dtype device = .error .valueError ∧
    emptyLike (.objects n) (some sh) (some k) dtype device = .error .valueError ∧
    (t.shape = [] → emptyLike (.tensor t) none (some k) dtype device = .error .valueError) ∧
    (∀ l : List ℕ, l.length ≠ 1 → emptyLike (.objects n) (some (.seq l)) none dtype device = .error .valueError) ∧
    (∀ r, emptyLike (.tensor t) shape length none device = .ok r → emptyLike (.tensor t) shape length (some .object) device = .error .typeError) ∧
    emptyLike .other shape length dtype device = .error .typeError := by
  refine ⟨rfl, rfl, ?_, ?_, ?_, rfl⟩
  · intro h
    simp [emptyLike, newShape, h, Except.bind]
  · intro l hl
    match l, hl with
    | [], _ => rfl
    | a :: b :: l, _ => rfl
  · intro r hr
    cases hs : newShape t shape length with
    | error e => simp [emptyLike, hs, Except.bind] at hr
    | ok s => simp [emptyLike, hs, Except.bind, emptyOf]

/-- **C136 (violated: a number as shape).** For an object array a number as `shape` is never accepted: the length is never assigned. -/
theorem C136_violated_empty_like (n k : ℕ) : emptyLike (.objects n) (some (.num k)) none none none = .error .otherError := by
  simp [emptyLike, objectLength, Except.bind]

/-! ### make_tensor -/

/-- **C136.** `make_tensor` makes a new tensor with the given elements, in the requested or inferred dtype, on the requested device or where the data is. -/
theorem C136_make_tensor (fresh : ℕ) (infer : DT) (data : Data) (dtype : Option DT) (device : Option String) (ro : Bool) :
    ∃ t, makeTensor fresh infer data (dtype.map .numeric) device ro = .ok (.tensor t ro) ∧ t.ident = fresh ∧ t.shape = data.shape ∧ t.device = device.getD data.device ∧
      t.dtype = dtype.getD (match data with | .tensor s => s.dtype | _ => infer) ∧ List.Forall₂ (InDtype t.dtype) data.elems t.data := by
  have hF : ∀ (d : DT) (l : List ℚ), List.Forall₂ (InDtype d) l (l.map (conv d)) := by
    intro d l
    induction l with
    | nil => exact List.Forall₂.nil
    | cons a l ih => exact List.Forall₂.cons (conv_spec d a) ih
  refine ⟨torchTensor fresh infer data dtype device, by cases dtype <;> rfl, ?_⟩
  cases data with
  | tensor t => exact ⟨rfl, rfl, rfl, rfl, hF _ _⟩
  | scalar x => exact ⟨rfl, rfl, rfl, rfl, hF _ [x]⟩
  | seq xs => exact ⟨rfl, rfl, rfl, rfl, hF _ _⟩

/-- **C136.** With `dtype=object` it makes an object array with the given elements; what has no elements is refused. -/
theorem C136_make_objects (fresh : ℕ) (infer : DT) (data : Data) (device : Option String) (ro : Bool) :
    (data.shape ≠ [] → makeTensor fresh infer data (some .object) device ro = .ok (.objects data.elems ro)) ∧
    (data.shape = [] → makeTensor fresh infer data (some .object) device ro = .error .typeError) := by
  cases data with
  | tensor t => simp [makeTensor, elems, Data.shape, Data.elems, Except.bind]; constructor <;> intro h <;> simp [h]
  | scalar x => simp [makeTensor, elems, Data.shape, Except.bind]
  | seq xs => simp [makeTensor, elems, Data.shape, Data.elems, Except.bind]

/-- **C136 (violated: device of object arrays).** A device which an object array cannot be on is ignored instead of refused. -/
theorem C136_violated_make_objects_device (fresh : ℕ) (infer : DT) (xs : List ℚ) (dev : String) (h : dev ≠ "cpu") :
    ∃ r, makeTensor fresh infer (.seq xs) (some .object) (some dev) false = .ok r ∧ r.device ≠ dev :=
  ⟨.objects xs false, rfl, Ne.symm h⟩

/-! ### numpy_copy -/

/-- **C136 (partial).** `numpy_copy` gives a new, writable array with the elements of the original, in the requested dtype. Missing: PyTorch dtypes, see below, and tensors that require gradients. -/
theorem C136_numpy_copy_partial (fresh : ℕ) (x : Original) (hx : ∀ t, x ≠ .tensor t true) :
    numpyCopy fresh x none = .ok ⟨fresh, x.data, true⟩ ∧
    ∀ d, ∃ ys, numpyCopy fresh x (some (.numpy d)) = .ok ⟨fresh, ys, true⟩ ∧ List.Forall₂ (InDtype d) x.data ys := by
  have hF : ∀ (d : DT) (l : List ℚ), List.Forall₂ (InDtype d) l (l.map (conv d)) := by
    intro d l
    induction l with
    | nil => exact List.Forall₂.nil
    | cons a l ih => exact List.Forall₂.cons (conv_spec d a) ih
  cases x with
  | tensor t g =>
    cases g with
    | true => exact absurd rfl (hx t)
    | false => exact ⟨rfl, fun d => ⟨_, rfl, hF d _⟩⟩
  | objects es ro => exact ⟨rfl, fun d => ⟨_, rfl, hF d _⟩⟩
  | numpy a => exact ⟨rfl, fun d => ⟨_, rfl, hF d _⟩⟩
  | iterable xs => exact ⟨rfl, fun d => ⟨_, rfl, hF d _⟩⟩

/-- **C136 (violated: PyTorch dtypes).** The documented "torch dtype" is never accepted. -/
theorem C136_violated_numpy_copy (fresh : ℕ) (x : Original) (d : DT) (hx : ∀ t, x ≠ .tensor t true) : numpyCopy fresh x (some (.torch d)) = .error .typeError := by
  cases x with
  | tensor t g =>
    cases g
    · rfl
    · exact absurd rfl (hx t)
  | objects es ro => rfl
  | numpy a => rfl
  | iterable xs => rfl

/-- **C136 (violated: gradients).** A tensor that requires gradients is refused. -/
theorem C136_violated_numpy_copy_grad (fresh : ℕ) (t : T) (d : Option NpDt) : numpyCopy fresh (.tensor t true) d = .error .runtimeError := rfl

/-! ### Examples -/

/-- A 2 by 3 tensor. -/
def exT : T := ⟨0, [2, 3], .float 32, "cpu", [1, 2, 3, 4, 5, 6]⟩

example : Proper exT ∧ Fits exT (.vector [2, 2, 2]) ∧ Fits exT (.scalar 5) ∧ exT.ident < 1 := by
  refine ⟨⟨rfl, ?_⟩, Or.inr rfl, trivial, by decide⟩
  intro v _; rfl

example : (clipTensor 1 exT (some (.vector [2, 2, 4])) (some (.scalar 5)) true).map (·.data) = .ok [2, 2, 4, 4, 5, 5] := by
  decide +kernel

example : (Data.tensor exT).Proper ∧ (Data.seq [1, 2]).Proper := ⟨⟨rfl, fun v _ => rfl⟩, trivial⟩

example : (ensureLength 1 (.seq [1, 5 / 2]) 2 (.int 64) false none).map (·.data) = .ok [1, 2] := by decide +kernel

example : (∀ k, (some (Shape.seq [4])) ≠ some (.num k)) ∧ emptyLike (.objects 7) (some (.seq [4])) none none none = .ok (.objects 4) := by
  refine ⟨fun k h => (by cases h), rfl⟩

example : ∀ t, (Original.objects [1] true) ≠ .tensor t true := by intro t h; cases h

end EvoTorch.TensorUtil
