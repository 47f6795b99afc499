import Verif.Model.ConstraintCalls
import Verif.Props.ExpectsNdim
import Verif.Props.Constraints
/-! Property C146: `violation`, `penalty` and `log_barrier` on batches. -/
namespace EvoTorch.ConstraintCalls
open EvoTorch
open EvoTorch.Constraints
open EvoTorch.ExpectsNdim

/-! ### Specification -/

/-- A tensor of the given dtype and device, or a number. -/
def Plain (dtype device : ℕ) (a : A) : Prop := (∃ t, a = .tensor t ∧ t.dtype = dtype ∧ t.device = device) ∨ ∃ x, a = .number x false

/-- Its shape; numbers have no dimensions. -/
def shapeOf : A → List ℕ
  | .tensor t => t.shape
  | _ => []

/-- Its value at a position of the batch: the dimensions are aligned at the right; a number has the same value everywhere. -/
noncomputable def valueAt (idx : List ℕ) : A → Flt ℝ
  | .tensor t => t.val (idx.drop (idx.length - t.shape.length))
  | .number x _ => x
  | _ => .nan

/-- `B` is the common batch shape of the arguments. -/
def Aligned (args : List A) (B : List ℕ) : Prop := (∀ a ∈ args, shapeOf a <:+ B) ∧ (B = [] ∨ ∃ a ∈ args, shapeOf a = B)

/-! ### Calls -/

theorem castNumbers_false (slots : List (Option ℕ × A)) : castNumbers false slots = .ok slots := by
  induction slots with
  | nil => rfl
  | cons p rest ih =>
    obtain ⟨e, a⟩ := p
    cases e with
    | none => simp only [castNumbers, ih]; rfl
    | some d =>
      cases a with
      | number x b => cases b <;> (simp only [castNumbers, ih]; rfl)
      | tensor t => simp only [castNumbers, ih]; rfl
      | array t => simp only [castNumbers, ih]; rfl
      | other o => simp only [castNumbers, ih]; rfl

theorem tensorsOf_mem (slots : List (Option ℕ × A)) (t : Ten (Flt ℝ)) : t ∈ tensorsOf slots ↔ ∃ p ∈ slots, p.2 = .tensor t := by
  induction slots with
  | nil => simp [tensorsOf]
  | cons p rest ih =>
    obtain ⟨e, a⟩ := p
    cases a with
    | tensor u =>
      simp only [tensorsOf, List.mem_cons, ih, exists_eq_or_imp, Arg.tensor.injEq]
      exact ⟨fun h => h.imp Eq.symm id, fun h => h.imp Eq.symm id⟩
    | number x b => simp [tensorsOf, ih]
    | array u => simp [tensorsOf, ih]
    | other o => simp [tensorsOf, ih]

/-- The slots of the three functions: values and strings. -/
def Slot (dtype device : ℕ) (p : Option ℕ × A) : Prop := (p.1 = some 0 ∧ Plain dtype device p.2) ∨ (p.1 = none ∧ ∃ o, p.2 = .other o)

/-- What the scalar function gets at a position. -/
noncomputable def argAt (dtype device : ℕ) (idx : List ℕ) (p : Option ℕ × A) : A := item (asTensor dtype device p).1 idx (asTensor dtype device p).2

theorem call_batched (integer : ℕ → Bool) (dtype device : ℕ) (hint : integer dtype = false) (slots : List (Option ℕ × A)) (fn : List A → Except PyErr (Flt ℝ)) (hs : ∀ p ∈ slots, Slot dtype device p)
    (ht : ∃ p ∈ slots, ∃ t, p.2 = .tensor t) (B : List ℕ) (hB : (∀ p ∈ slots, shapeOf p.2 <:+ B) ∧ (B = [] ∨ ∃ p ∈ slots, shapeOf p.2 = B)) :
    ∃ tree, call integer slots fn = .ok tree ∧ HasShape B tree ∧ ∀ idx, Position idx B → tree.get idx = some (fn (slots.map (argAt dtype device idx))) := by
  have hsame : ∀ t ∈ tensorsOf slots, t.dtype = dtype ∧ t.device = device := by
    intro t h
    obtain ⟨p, hp, hpt⟩ := (tensorsOf_mem slots t).1 h
    rcases hs p hp with ⟨_, ⟨u, hu, h1, h2⟩ | ⟨x, hx⟩⟩ | ⟨_, o, ho⟩
    · rw [hu] at hpt; cases hpt; exact ⟨h1, h2⟩
    · rw [hx] at hpt; cases hpt
    · rw [ho] at hpt; cases hpt
  have hne : tensorsOf slots ≠ [] := by
    obtain ⟨p, hp, t, htp⟩ := ht
    intro h
    have := (tensorsOf_mem slots t).2 ⟨p, hp, htp⟩
    rw [h] at this; cases this
  have hwhole : wholeNumbers integer slots = false := by
    have hded : ∀ (f : Ten (Flt ℝ) → ℕ) (v : ℕ) (l : List (Ten (Flt ℝ))), l ≠ [] → (∀ t ∈ l, f t = v) → (l.map f).dedup = [v] := by
      intro f v l
      induction l with
      | nil => intro h; exact absurd rfl h
      | cons t ts ih =>
        intro _ h
        cases ts with
        | nil => simp [h t (by simp)]
        | cons u us =>
          rw [List.map_cons, List.dedup_cons_of_mem, ih (by simp) fun t ht => h t (by simp [ht])]
          simp [h t (by simp), h u (by simp)]
    unfold wholeNumbers
    rw [hded _ device _ hne fun t h => (hsame t h).2, hded _ dtype _ hne fun t h => (hsame t h).1]
    exact hint
  have hbool : ∀ p ∈ slots, ∀ x, p.2 ≠ .number x true := by
    intro p hp x hx
    rcases hs p hp with ⟨_, ⟨u, hu, _⟩ | ⟨y, hy⟩⟩ | ⟨_, o, ho⟩
    · rw [hu] at hx; cases hx
    · rw [hy] at hx; cases hx
    · rw [ho] at hx; cases hx
  have hproper : Proper (slots.map (asTensor dtype device)) := by
    intro q hq d hd
    rw [List.mem_map] at hq
    obtain ⟨⟨e, a⟩, hp, rfl⟩ := hq
    rcases hs _ hp with ⟨h1, ⟨u, hu, _⟩ | ⟨y, hy⟩⟩ | ⟨h1, o, ho⟩
    · simp only at h1 hu; subst h1 hu; simp only [asTensor] at hd ⊢; cases hd; exact ⟨u, rfl, Nat.zero_le _⟩
    · simp only at h1 hy; subst h1 hy; simp only [asTensor] at hd ⊢; cases hd; exact ⟨_, rfl, Nat.zero_le _⟩
    · simp only at h1 ho; subst h1 ho; simp only [asTensor] at hd; cases hd
  have hshape : ∀ p ∈ slots, batchShape (asTensor dtype device p).1 (asTensor dtype device p).2 = shapeOf p.2 := by
    rintro ⟨e, a⟩ hp
    rcases hs _ hp with ⟨h1, ⟨u, hu, _⟩ | ⟨y, hy⟩⟩ | ⟨h1, o, ho⟩
    · simp only at h1 hu; subst h1 hu; simp [asTensor, batchShape, shapeOf]
    · simp only at h1 hy; subst h1 hy; simp [asTensor, batchShape, shapeOf]
    · simp only at h1 ho; subst h1 ho; simp [asTensor, batchShape, shapeOf]
  have hcommon : CommonBatch (slots.map (asTensor dtype device)) B := by
    refine ⟨?_, ?_⟩
    · intro q hq
      rw [List.mem_map] at hq
      obtain ⟨p, hp, rfl⟩ := hq
      rw [hshape p hp]; exact hB.1 p hp
    · rcases hB.2 with h | ⟨p, hp, h⟩
      · exact Or.inl h
      · exact Or.inr ⟨_, List.mem_map.2 ⟨p, hp, rfl⟩, by rw [hshape p hp]; exact h⟩
  obtain ⟨tree, h1, h2, h3⟩ := C60_batched (slots.map (asTensor dtype device)) fn hproper B hcommon
  refine ⟨tree, ?_, h2, fun idx hidx => ?_⟩
  · unfold call
    rw [hwhole, castNumbers_false]
    show decorated (slots.map Prod.fst) false fn (slots.map Prod.snd) = _
    rw [C60_numbers slots fn false dtype device hne hsame hbool]
    exact h1
  · rw [h3 idx hidx, List.map_map]; rfl

theorem argAt_plain (dtype device : ℕ) (idx : List ℕ) (a : A) (h : Plain dtype device a) :
    ∃ t, argAt dtype device idx (some 0, a) = .tensor t ∧ t.val [] = valueAt idx a := by
  rcases h with ⟨t, rfl, _⟩ | ⟨x, rfl⟩
  · exact ⟨_, rfl, by simp [valueAt]⟩
  · exact ⟨_, rfl, by simp [valueAt]⟩

theorem argAt_other (dtype device : ℕ) (idx : List ℕ) (o : Word) : argAt dtype device idx (none, .other o) = .other o := rfl

theorem shape_of_other (o : Word) (B : List ℕ) : shapeOf (.other o : A) <:+ B := by simp [shapeOf]

/-- **C146, violation.** With tensors of one floating dtype and one device, and numbers, at least one of them a tensor: the result has the common batch shape, and at each position it is the amount of violation
of the values at this position. -/
theorem C146_violation_partial (integer : ℕ → Bool) (dtype device : ℕ) (hint : integer dtype = false) (lhs rhs : A) (c : Cmp) (hl : Plain dtype device lhs) (hr : Plain dtype device rhs)
    (ht : ∃ t, lhs = .tensor t ∨ rhs = .tensor t) (B : List ℕ) (hB : Aligned [lhs, rhs] B) :
    ∃ tree, violationCall integer lhs c rhs = .ok tree ∧ HasShape B tree ∧
      ∀ idx, Position idx B → tree.get idx = some (violation (valueAt idx lhs) c (valueAt idx rhs)) := by
  obtain ⟨tree, h1, h2, h3⟩ := call_batched integer dtype device hint [(some 0, lhs), (none, .other (.cmp c)), (some 0, rhs)] violationFn
    (by
      simp only [List.forall_mem_cons, List.not_mem_nil, false_imp_iff, implies_true, and_true]
      exact ⟨Or.inl ⟨rfl, hl⟩, Or.inr ⟨rfl, _, rfl⟩, Or.inl ⟨rfl, hr⟩⟩)
    (by
      obtain ⟨t, h | h⟩ := ht
      · exact ⟨(some 0, lhs), by simp, t, h⟩
      · exact ⟨(some 0, rhs), by simp, t, h⟩) B
    (by
      obtain ⟨ha, hb⟩ := hB
      simp only [List.forall_mem_cons, List.not_mem_nil, false_imp_iff, implies_true, and_true] at ha ⊢
      refine ⟨⟨ha.1, shape_of_other _ _, ha.2⟩, hb.imp id ?_⟩
      rintro ⟨a, hm, hsB⟩
      simp only [List.mem_cons, List.not_mem_nil, or_false] at hm
      rcases hm with rfl | rfl
      · exact ⟨(some 0, a), by simp, hsB⟩
      · exact ⟨(some 0, a), by simp, hsB⟩)
  refine ⟨tree, h1, h2, fun idx hidx => ?_⟩
  rw [h3 idx hidx]
  obtain ⟨t, e1, e2⟩ := argAt_plain dtype device idx lhs hl
  obtain ⟨u, f1, f2⟩ := argAt_plain dtype device idx rhs hr
  simp only [List.map_cons, List.map_nil, e1, f1, argAt_other, violationFn, e2, f2]

/-- **C146, log barrier.** Likewise; an omitted sharpness is 1, an omitted bound is infinite. -/
theorem C146_log_barrier_partial (integer : ℕ → Bool) (dtype device : ℕ) (hint : integer dtype = false) (lhs rhs : A) (c : Cmp) (sign : Sign) (sharpness inf : Option A) (hl : Plain dtype device lhs)
    (hr : Plain dtype device rhs) (hs : ∀ a ∈ sharpness, Plain dtype device a) (hi : ∀ a ∈ inf, Plain dtype device a) (ht : ∃ t, lhs = .tensor t ∨ rhs = .tensor t) (B : List ℕ)
    (hB : Aligned ([lhs, rhs] ++ sharpness.toList ++ inf.toList) B) :
    ∃ tree, logBarrierCall integer lhs c rhs sign sharpness inf = .ok tree ∧ HasShape B tree ∧
      ∀ idx, Position idx B → ∀ sh : ℝ, 0 < sh → (∀ a ∈ sharpness, valueAt idx a = .fin sh) → (sharpness = none → sh = 1) →
        tree.get idx = some (logBarrier (valueAt idx lhs) c (valueAt idx rhs) sh sign ((inf.map (valueAt idx)).getD .pinf)) := by
  have hs' : Plain dtype device (sharpness.getD (.number (.fin 1) false)) := by
    cases sharpness with
    | none => exact Or.inr ⟨_, rfl⟩
    | some a => exact hs a rfl
  have hi' : Plain dtype device (inf.getD (.number .pinf false)) := by
    cases inf with
    | none => exact Or.inr ⟨_, rfl⟩
    | some a => exact hi a rfl
  obtain ⟨tree, h1, h2, h3⟩ := call_batched integer dtype device hint [(some 0, lhs), (none, .other (.cmp c)), (some 0, rhs), (some 0, sharpness.getD (.number (.fin 1) false)),
      (none, .other (.sign sign)), (some 0, inf.getD (.number .pinf false))] logBarrierFn
    (by
      simp only [List.forall_mem_cons, List.not_mem_nil, false_imp_iff, implies_true, and_true]
      exact ⟨Or.inl ⟨rfl, hl⟩, Or.inr ⟨rfl, _, rfl⟩, Or.inl ⟨rfl, hr⟩, Or.inl ⟨rfl, hs'⟩, Or.inr ⟨rfl, _, rfl⟩, Or.inl ⟨rfl, hi'⟩⟩)
    (by
      obtain ⟨t, h | h⟩ := ht
      · exact ⟨(some 0, lhs), by simp, t, h⟩
      · exact ⟨(some 0, rhs), by simp, t, h⟩) B
    (by
      obtain ⟨ha, hb⟩ := hB
      have hsh : ∀ (o : Option A) (x : Flt ℝ), (∀ a ∈ o, shapeOf a <:+ B) → shapeOf (o.getD (.number x false)) <:+ B := by
        intro o x h
        cases o with
        | none => simp [shapeOf]
        | some a => exact h a rfl
      simp only [List.forall_mem_cons, List.not_mem_nil, false_imp_iff, implies_true, and_true]
      refine ⟨⟨ha lhs (by simp), shape_of_other _ _, ha rhs (by simp), hsh _ _ fun a h => ha a (by simp_all), shape_of_other _ _, hsh _ _ fun a h => ha a (by simp_all)⟩, hb.imp id ?_⟩
      rintro ⟨a, hm, hsB⟩
      simp only [List.mem_append, List.mem_cons, List.not_mem_nil, or_false, Option.mem_toList] at hm
      rcases hm with ((rfl | rfl) | h) | h
      · exact ⟨(some 0, a), by simp, hsB⟩
      · exact ⟨(some 0, a), by simp, hsB⟩
      · have h' : sharpness = some a := h
        subst h'; exact ⟨(some 0, a), by simp, hsB⟩
      · have h' : inf = some a := h
        subst h'; exact ⟨(some 0, a), by simp, hsB⟩)
  refine ⟨tree, h1, h2, fun idx hidx sh hpos hsh hnone => ?_⟩
  rw [h3 idx hidx]
  obtain ⟨t, e1, e2⟩ := argAt_plain dtype device idx lhs hl
  obtain ⟨u, f1, f2⟩ := argAt_plain dtype device idx rhs hr
  obtain ⟨v, g1, g2⟩ := argAt_plain dtype device idx _ hs'
  obtain ⟨w, k1, k2⟩ := argAt_plain dtype device idx _ hi'
  have hv : v.val [] = .fin sh := by
    rw [g2]
    cases sharpness with
    | none => rw [hnone rfl]; rfl
    | some a => exact hsh a rfl
  have hw : w.val [] = (inf.map (valueAt idx)).getD .pinf := by
    rw [k2]
    cases inf with
    | none => rfl
    | some a => rfl
  simp only [List.map_cons, List.map_nil, e1, f1, g1, k1, argAt_other, logBarrierFn, e2, f2, hv, hw, if_pos hpos]

/-- **C146, penalty.** Likewise; an omitted multiplier or step is 0, an omitted exponent (or NaN) means that there is no power, an omitted bound is infinite. -/
theorem C146_penalty_partial (integer : ℕ → Bool) (dtype device : ℕ) (hint : integer dtype = false) (lhs rhs : A) (c : Cmp) (sign : Sign) (linear step exp expInf : Option A)
    (hl : Plain dtype device lhs) (hr : Plain dtype device rhs) (hlin : ∀ a ∈ linear, Plain dtype device a) (hst : ∀ a ∈ step, Plain dtype device a) (hex : ∀ a ∈ exp, Plain dtype device a)
    (hei : ∀ a ∈ expInf, Plain dtype device a) (ht : ∃ t, lhs = .tensor t ∨ rhs = .tensor t) (B : List ℕ)
    (hB : Aligned ([lhs, rhs] ++ linear.toList ++ step.toList ++ exp.toList ++ expInf.toList) B) :
    ∃ tree, penaltyCall integer lhs c rhs sign linear step exp expInf = .ok tree ∧ HasShape B tree ∧
      ∀ idx, Position idx B → ∀ (a b : ℝ) (p : Option ℝ), (∀ x ∈ linear, valueAt idx x = .fin a) → (linear = none → a = 0) → (∀ x ∈ step, valueAt idx x = .fin b) → (step = none → b = 0) →
        (∀ x ∈ exp, valueAt idx x = (p.map Flt.fin).getD .nan) → (exp = none → p = none) →
        tree.get idx = some (penalty (valueAt idx lhs) c (valueAt idx rhs) sign a b p ((expInf.map (valueAt idx)).getD .pinf)) := by
  have hplain : ∀ (o : Option A) (x : Flt ℝ), (∀ a ∈ o, Plain dtype device a) → Plain dtype device (o.getD (.number x false)) := by
    intro o x h
    cases o with
    | none => exact Or.inr ⟨_, rfl⟩
    | some a => exact h a rfl
  obtain ⟨tree, h1, h2, h3⟩ := call_batched integer dtype device hint [(some 0, lhs), (none, .other (.cmp c)), (some 0, rhs), (none, .other (.sign sign)),
      (some 0, linear.getD (.number (.fin 0) false)), (some 0, step.getD (.number (.fin 0) false)), (some 0, exp.getD (.number .nan false)), (some 0, expInf.getD (.number .pinf false))] penaltyFn
    (by
      simp only [List.forall_mem_cons, List.not_mem_nil, false_imp_iff, implies_true, and_true]
      exact ⟨Or.inl ⟨rfl, hl⟩, Or.inr ⟨rfl, _, rfl⟩, Or.inl ⟨rfl, hr⟩, Or.inr ⟨rfl, _, rfl⟩, Or.inl ⟨rfl, hplain _ _ hlin⟩, Or.inl ⟨rfl, hplain _ _ hst⟩, Or.inl ⟨rfl, hplain _ _ hex⟩, Or.inl ⟨rfl, hplain _ _ hei⟩⟩)
    (by
      obtain ⟨t, h | h⟩ := ht
      · exact ⟨(some 0, lhs), by simp, t, h⟩
      · exact ⟨(some 0, rhs), by simp, t, h⟩) B
    (by
      obtain ⟨ha, hb⟩ := hB
      have hsh : ∀ (o : Option A) (x : Flt ℝ), (∀ a ∈ o, shapeOf a <:+ B) → shapeOf (o.getD (.number x false)) <:+ B := by
        intro o x h
        cases o with
        | none => simp [shapeOf]
        | some a => exact h a rfl
      simp only [List.forall_mem_cons, List.not_mem_nil, false_imp_iff, implies_true, and_true]
      refine ⟨⟨ha lhs (by simp), shape_of_other _ _, ha rhs (by simp), shape_of_other _ _, hsh _ _ fun a h => ha a (by simp_all), hsh _ _ fun a h => ha a (by simp_all),
        hsh _ _ fun a h => ha a (by simp_all), hsh _ _ fun a h => ha a (by simp_all)⟩, hb.imp id ?_⟩
      rintro ⟨a, hm, hsB⟩
      simp only [List.mem_append, List.mem_cons, List.not_mem_nil, or_false, Option.mem_toList] at hm
      rcases hm with ((((rfl | rfl) | h) | h) | h) | h
      · exact ⟨(some 0, a), by simp, hsB⟩
      · exact ⟨(some 0, a), by simp, hsB⟩
      · have h' : linear = some a := h
        subst h'; exact ⟨(some 0, a), by simp, hsB⟩
      · have h' : step = some a := h
        subst h'; exact ⟨(some 0, a), by simp, hsB⟩
      · have h' : exp = some a := h
        subst h'; exact ⟨(some 0, a), by simp, hsB⟩
      · have h' : expInf = some a := h
        subst h'; exact ⟨(some 0, a), by simp, hsB⟩)
  refine ⟨tree, h1, h2, fun idx hidx a b p ha ha0 hb hb0 hp hp0 => ?_⟩
  rw [h3 idx hidx]
  obtain ⟨t, e1, e2⟩ := argAt_plain dtype device idx lhs hl
  obtain ⟨u, f1, f2⟩ := argAt_plain dtype device idx rhs hr
  obtain ⟨v, g1, g2⟩ := argAt_plain dtype device idx _ (hplain linear (.fin 0) hlin)
  obtain ⟨w, k1, k2⟩ := argAt_plain dtype device idx _ (hplain step (.fin 0) hst)
  obtain ⟨x, l1, l2⟩ := argAt_plain dtype device idx _ (hplain exp .nan hex)
  obtain ⟨y, m1, m2⟩ := argAt_plain dtype device idx _ (hplain expInf .pinf hei)
  have hv : v.val [] = .fin a := by
    rw [g2]
    cases linear with
    | none => rw [ha0 rfl]; rfl
    | some z => exact ha z rfl
  have hw : w.val [] = .fin b := by
    rw [k2]
    cases step with
    | none => rw [hb0 rfl]; rfl
    | some z => exact hb z rfl
  have hx : x.val [] = (p.map Flt.fin).getD .nan := by
    rw [l2]
    cases exp with
    | none => rw [hp0 rfl]; rfl
    | some z => exact hp z rfl
  have hy : y.val [] = (expInf.map (valueAt idx)).getD .pinf := by
    rw [m2]
    cases expInf with
    | none => rfl
    | some a => rfl
  cases p with
  | none => simp only [List.map_cons, List.map_nil, e1, f1, g1, k1, l1, m1, argAt_other, penaltyFn, e2, f2, hv, hw, hx, hy, Option.map_none, Option.getD_none]
  | some q => simp only [List.map_cons, List.map_nil, e1, f1, g1, k1, l1, m1, argAt_other, penaltyFn, e2, f2, hv, hw, hx, hy, Option.map_some, Option.getD_some]

/-- **C146 violated.** Without any tensor among the arguments, which the documentation describes as the non-batched case, all three functions raise TypeError. -/
theorem C146_violated_numbers (integer : ℕ → Bool) (x y : Flt ℝ) (c : Cmp) (sign : Sign) (sh inf lin st e ei : Option (Flt ℝ)) :
    let num := fun o : Option (Flt ℝ) => o.map fun z => (.number z false : A)
    violationCall integer (.number x false) c (.number y false) = .error .typeError ∧
    logBarrierCall integer (.number x false) c (.number y false) sign (num sh) (num inf) = .error .typeError ∧
    penaltyCall integer (.number x false) c (.number y false) sign (num lin) (num st) (num e) (num ei) = .error .typeError := by
  have key : ∀ (rest : List (Option ℕ × A)) (fn : List A → Except PyErr (Flt ℝ)), tensorsOf rest = [] →
      call integer ((some 0, .number x false) :: rest) fn = .error .typeError := by
    intro rest fn h
    have hw : wholeNumbers integer ((some 0, .number x false) :: rest) = false := by simp [wholeNumbers, tensorsOf, h]
    unfold call
    rw [hw, castNumbers_false]
    have hz : ∀ l : List (Option ℕ × A), (l.map Prod.fst).zip (l.map Prod.snd) = l := by
      intro l; rw [List.zip_map']; simp
    show decorated _ false fn _ = _
    unfold decorated
    rw [hz]
    simp [convertAll, convert, scalarToTensor, tensorsOf, h, Except.bind, Except.map]
  intro num
  have hnum : ∀ (o : Option (Flt ℝ)) (d : Flt ℝ), ∃ z, (num o).getD (.number d false) = .number z false := by
    intro o d
    cases o with
    | none => exact ⟨d, rfl⟩
    | some z => exact ⟨z, rfl⟩
  refine ⟨key _ _ rfl, ?_, ?_⟩
  · obtain ⟨z1, h1⟩ := hnum sh (.fin 1)
    obtain ⟨z2, h2⟩ := hnum inf .pinf
    unfold logBarrierCall
    rw [h1, h2]
    exact key _ _ rfl
  · obtain ⟨z1, h1⟩ := hnum lin (.fin 0)
    obtain ⟨z2, h2⟩ := hnum st (.fin 0)
    obtain ⟨z3, h3⟩ := hnum e .nan
    obtain ⟨z4, h4⟩ := hnum ei .pinf
    unfold penaltyCall
    rw [h1, h2, h3, h4]
    exact key _ _ rfl

/-- **C146 violated.** With integer tensors, `penalty` without an exponent raises ValueError, and `log_barrier` without a bound raises OverflowError; the fraction of a multiplier is dropped silently (here: with
1/2 nothing is penalised, although 7 ≤ 3 is violated). -/
theorem C146_violated_integers (integer : ℕ → Bool) (t u : Ten (Flt ℝ)) (hd : t.dtype = u.dtype) (hv : t.device = u.device) (hi : integer t.dtype = true) (c : Cmp) (sign : Sign)
    (ht : t.shape = []) (hu : u.shape = []) (htv : t.val = fun _ => .fin 7) (huv : u.val = fun _ => .fin 3) :
    penaltyCall integer (.tensor t) c (.tensor u) sign none none none none = .error .valueError ∧
    logBarrierCall integer (.tensor t) c (.tensor u) sign none none = .error .otherError ∧
    ∃ tree, penaltyCall integer (.tensor t) .le (.tensor u) .plus (some (.number (.fin (1 / 2)) false)) none (some (.number (.fin 1) false)) (some (.number (.fin 0) false)) = .ok tree ∧
      tree.get [] = some (.ok (.fin 0)) := by
  have hw : ∀ rest : List (Option ℕ × A), tensorsOf rest = [] → ∀ o : Word, wholeNumbers integer ((some 0, .tensor t) :: (none, .other o) :: (some 0, .tensor u) :: rest) = true := by
    intro rest h o
    simp [wholeNumbers, tensorsOf, h, hd, hv]
    rw [← hd]; exact hi
  refine ⟨?_, ?_, ?_⟩
  · unfold penaltyCall call
    rw [hw _ rfl]
    simp [castNumbers, toInteger, Except.bind, Except.map]
  · unfold logBarrierCall call
    rw [hw _ rfl]
    simp [castNumbers, toInteger, Except.bind, Except.map]
  · unfold penaltyCall call
    rw [hw _ rfl]
    have hfloor : (⌊(1 / 2 : ℝ)⌋ : ℤ) = 0 := by norm_num
    simp only [castNumbers, toInteger, Except.bind, Except.map, Option.getD_some, Option.getD_none, if_true, if_pos (show (0 : ℝ) ≤ 1 / 2 by norm_num), hfloor,
      if_pos (show (0 : ℝ) ≤ 0 by norm_num), if_pos (show (0 : ℝ) ≤ 1 by norm_num), Int.floor_zero, Int.floor_one, Int.cast_zero, Int.cast_one]
    have hne : tensorsOf [((some 0 : Option ℕ), (.tensor t : A)), (none, .other (.cmp .le)), (some 0, .tensor u), (none, .other (.sign .plus)), (some 0, .number (.fin 0) false), (some 0, .number (.fin 0) false),
      (some 0, .number (.fin 1) false), (some 0, .number (.fin 0) false)] = [t, u] := rfl
    obtain ⟨tree, h1, _, h3⟩ := call_batched (fun _ => false) t.dtype t.device rfl [((some 0 : Option ℕ), (.tensor t : A)), (none, .other (.cmp .le)), (some 0, .tensor u), (none, .other (.sign .plus)),
      (some 0, .number (.fin 0) false), (some 0, .number (.fin 0) false), (some 0, .number (.fin 1) false), (some 0, .number (.fin 0) false)] penaltyFn
      (by
        simp only [List.forall_mem_cons, List.not_mem_nil, false_imp_iff, implies_true, and_true]
        exact ⟨Or.inl ⟨rfl, Or.inl ⟨t, rfl, rfl, rfl⟩⟩, Or.inr ⟨rfl, _, rfl⟩, Or.inl ⟨rfl, Or.inl ⟨u, rfl, hd.symm, hv.symm⟩⟩, Or.inr ⟨rfl, _, rfl⟩, Or.inl ⟨rfl, Or.inr ⟨_, rfl⟩⟩,
          Or.inl ⟨rfl, Or.inr ⟨_, rfl⟩⟩, Or.inl ⟨rfl, Or.inr ⟨_, rfl⟩⟩, Or.inl ⟨rfl, Or.inr ⟨_, rfl⟩⟩⟩)
      ⟨(some 0, .tensor t), by simp, t, rfl⟩ [] (by simp [shapeOf, ht, hu])
    refine ⟨tree, ?_, ?_⟩
    · unfold call at h1
      rw [show wholeNumbers (fun _ => false) _ = false from by simp [wholeNumbers, hne, hd, hv], castNumbers_false] at h1
      exact h1
    · rw [h3 [] List.Forall₂.nil]
      obtain ⟨v, e1, e2⟩ := argAt_plain t.dtype t.device [] (.tensor t) (Or.inl ⟨t, rfl, rfl, rfl⟩)
      obtain ⟨w, f1, f2⟩ := argAt_plain t.dtype t.device [] (.tensor u) (Or.inl ⟨u, rfl, hd.symm, hv.symm⟩)
      obtain ⟨x, g1, g2⟩ := argAt_plain t.dtype t.device [] (.number (.fin 0) false) (Or.inr ⟨_, rfl⟩)
      obtain ⟨y, k1, k2⟩ := argAt_plain t.dtype t.device [] (.number (.fin 1) false) (Or.inr ⟨_, rfl⟩)
      simp only [List.map_cons, List.map_nil, e1, f1, g1, k1, argAt_other, penaltyFn, e2, f2, g2, k2]
      simp only [valueAt, htv, huv]
      have hvio : violation (.fin 7) .le (.fin 3) = .ok (.fin 4) := by
        simp only [violation, Flt.sub, relu_fin]; norm_num
      simp [penalty, hvio, Except.bind, Flt.mul, Flt.add, pow, whereF, Flt.lt]

/-- **C146 violated.** Two tensors with different floating dtypes can be compared by `violation`, but not by `penalty` or `log_barrier`: the constants filled in for the omitted arguments cannot be converted
(TypeError). -/
theorem C146_violated_mixed (integer : ℕ → Bool) (t u : Ten (Flt ℝ)) (hd : t.dtype ≠ u.dtype) (hv : t.device = u.device) (ht : t.shape = []) (hu : u.shape = []) (c : Cmp) (sign : Sign) :
    (∃ tree, violationCall integer (.tensor t) c (.tensor u) = .ok tree ∧ tree.get [] = some (violation (t.val []) c (u.val []))) ∧
    penaltyCall integer (.tensor t) c (.tensor u) sign none none none none = .error .typeError ∧
    logBarrierCall integer (.tensor t) c (.tensor u) sign none none = .error .typeError := by
  have hw : ∀ rest : List (Option ℕ × A), tensorsOf rest = [] → ∀ o : Word, wholeNumbers integer ((some 0, .tensor t) :: (none, .other o) :: (some 0, .tensor u) :: rest) = false := by
    intro rest h o
    simp [wholeNumbers, tensorsOf, h, hd, hv]
  refine ⟨?_, ?_, ?_⟩
  · obtain ⟨tree, h1, h2, h3⟩ := C60_batched [((some 0 : Option ℕ), (.tensor t : A)), (none, .other (.cmp c)), (some 0, .tensor u)] violationFn
      (by
        intro p hp d hpd
        simp only [List.mem_cons, List.not_mem_nil, or_false] at hp
        rcases hp with rfl | rfl | rfl
        · cases hpd; exact ⟨t, rfl, Nat.zero_le _⟩
        · cases hpd
        · cases hpd; exact ⟨u, rfl, Nat.zero_le _⟩) []
      ⟨by
        intro p hp
        simp only [List.mem_cons, List.not_mem_nil, or_false] at hp
        rcases hp with rfl | rfl | rfl <;> simp [batchShape, ht, hu], Or.inl rfl⟩
    refine ⟨tree, ?_, ?_⟩
    · unfold violationCall call
      rw [hw _ rfl, castNumbers_false]
      exact h1
    · rw [h3 [] List.Forall₂.nil]
      simp [item, violationFn]
  · unfold penaltyCall call
    rw [hw _ rfl, castNumbers_false]
    simp [decorated, convertAll, convert, scalarToTensor, tensorsOf, hd, hv, ht, hu, tooSmall, Arg.ndim, Except.bind, Except.map]
  · unfold logBarrierCall call
    rw [hw _ rfl, castNumbers_false]
    simp [decorated, convertAll, convert, scalarToTensor, tensorsOf, hd, hv, ht, hu, tooSmall, Arg.ndim, Except.bind, Except.map]

/-! ### Non-vacuity -/

noncomputable example : ∃ (lhs rhs : A), Plain 1 0 lhs ∧ Plain 1 0 rhs ∧ (∃ t, lhs = .tensor t ∨ rhs = .tensor t) ∧ Aligned [lhs, rhs] [3] ∧ Position [2] [3] ∧ valueAt [2] lhs = .fin 2 ∧ valueAt [2] rhs = .fin 5 :=
  ⟨.tensor ⟨[3], fun idx => .fin (idx.headD 0 : ℕ), 1, 0⟩, .number (.fin 5) false, Or.inl ⟨_, rfl, rfl, rfl⟩, Or.inr ⟨_, rfl⟩, ⟨_, Or.inl rfl⟩,
    ⟨by simp [shapeOf], Or.inr ⟨_, List.mem_cons_self, rfl⟩⟩, List.Forall₂.cons (by decide) .nil, by simp [valueAt], rfl⟩

end EvoTorch.ConstraintCalls
