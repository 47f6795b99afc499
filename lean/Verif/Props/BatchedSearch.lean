import Verif.Model.BatchedSearch
import Verif.Props.ExpectsNdim
import Mathlib.Data.List.Infix
/-! Property C113: a batched functional search is a batch of independent searches. -/
namespace EvoTorch.BatchedSearch
open EvoTorch EvoTorch.ExpectsNdim
variable {K O : Type} [Inhabited K]

/-! ### Specification -/

omit [Inhabited K] in
/-- The part of a tensor which belongs to the search at position `idx` of the batch, for a tensor whose rightmost `d` dimensions belong to each search: the batch dimensions are aligned to the right end of `idx`, so
that a tensor with fewer (or no) batch dimensions is shared. -/
def part (d : ℕ) (idx : List ℕ) (t : Ten K) : Ten K :=
  { t with shape := t.shape.drop (t.shape.length - d), val := fun core => t.val (idx.drop (idx.length - (t.shape.length - d)) ++ core) }

omit [Inhabited K] in
/-- A tensor with `d` dimensions for each search, whose batch dimensions are a right end of `B`. -/
def Fits (B : List ℕ) (d : ℕ) (t : Ten K) : Prop := d ≤ t.shape.length ∧ t.shape.take (t.shape.length - d) <:+ B

omit [Inhabited K] in
/-- Arguments which differ in the entries of tensors only. -/
def SameMeta : Arg K O → Arg K O → Prop
  | .tensor a, .tensor b => a.shape = b.shape ∧ a.dtype = b.dtype ∧ a.device = b.device
  | a, b => a = b

omit [Inhabited K] in
/-- An argument with exactly the declared number of dimensions. -/
def Exact : Option ℕ → Arg K O → Prop
  | some d, .tensor t => t.shape.length = d
  | some _, _ => False
  | none, _ => True

omit [Inhabited K] in
/-- What is assumed of a kernel: the shape, the dtype and the device of the result do not depend on the entries of the arguments, and the result has `d` dimensions. -/
structure IsKernel (expected : List (Option ℕ)) (d : ℕ) (fn : Kernel K O) : Prop where
  static : ∀ as bs, List.Forall₂ SameMeta as bs → (fn as).shape = (fn bs).shape ∧ (fn as).dtype = (fn bs).dtype ∧ (fn as).device = (fn bs).device
  ndim : ∀ as, List.Forall₂ Exact expected as → (fn as).shape.length = d

/-- The part of a state which belongs to the search at `idx`. -/
def Cem.part (s : Cem K O) (idx : List ℕ) : Cem K O :=
  ⟨BatchedSearch.part 1 idx s.center, BatchedSearch.part 1 idx s.stdev, BatchedSearch.part 1 idx s.stdevMin, BatchedSearch.part 1 idx s.stdevMax, BatchedSearch.part 1 idx s.stdevMaxChange, s.ratio, s.maximize⟩

/-- The tensors of a state belong to a batch of shape `B`. -/
def Cem.Fits (B : List ℕ) (s : Cem K O) : Prop :=
  BatchedSearch.Fits B 1 s.center ∧ BatchedSearch.Fits B 1 s.stdev ∧ BatchedSearch.Fits B 1 s.stdevMin ∧ BatchedSearch.Fits B 1 s.stdevMax ∧ BatchedSearch.Fits B 1 s.stdevMaxChange

/-- The fields of an optimiser's state which belong to the search at `idx`. -/
def optPart (o : Optimizer K O) (idx : List ℕ) (fields : List (Ten K)) : List (Ten K) := List.zipWith (fun p t => part p.1 idx t) o fields

/-- They belong to a batch of shape `B`. -/
def OptFits (o : Optimizer K O) (B : List ℕ) (fields : List (Ten K)) : Prop := List.Forall₂ (fun p t => Fits B p.1 t) o fields

/-- The part of a state which belongs to the search at `idx`. -/
def Pgpe.part (o : Optimizer K O) (s : Pgpe K O) (idx : List ℕ) : Pgpe K O :=
  ⟨optPart o idx s.optimizer, BatchedSearch.part 1 idx s.stdev, BatchedSearch.part 0 idx s.stdevLr, BatchedSearch.part 1 idx s.stdevMin, BatchedSearch.part 1 idx s.stdevMax,
    BatchedSearch.part 1 idx s.stdevMaxChange, s.ranking, s.sense⟩

/-- The tensors of a state belong to a batch of shape `B`. -/
def Pgpe.Fits (o : Optimizer K O) (B : List ℕ) (s : Pgpe K O) : Prop :=
  OptFits o B s.optimizer ∧ BatchedSearch.Fits B 1 s.stdev ∧ BatchedSearch.Fits B 0 s.stdevLr ∧ BatchedSearch.Fits B 1 s.stdevMin ∧ BatchedSearch.Fits B 1 s.stdevMax ∧
    BatchedSearch.Fits B 1 s.stdevMaxChange

/-- Kernels of CEM. -/
structure CemOk (k : CemKernels K O) : Prop where
  sample : IsKernel [some 1, some 1, none, none, some 2] 2 k.sample
  newCenter : IsKernel [some 1, some 1, some 1, none, none, some 1, some 1, some 2, some 1] 1 k.newCenter
  newStdev : IsKernel [some 1, some 1, some 1, none, none, some 1, some 1, some 2, some 1] 1 k.newStdev

/-- Kernels of an optimiser. -/
def OptOk (o : Optimizer K O) : Prop := ∀ p ∈ o, ∀ fn, p.2 = some fn → IsKernel (some 1 :: o.map fun p => some p.1) p.1 fn

/-- Kernels of PGPE. -/
structure PgpeOk (k : PgpeKernels K O) : Prop where
  sample : IsKernel [none, some 1, some 1, some 2] 2 k.sample
  muGrad : IsKernel [none, none, some 2, some 1, some 1, some 1] 1 k.muGrad
  sigmaGrad : IsKernel [none, none, some 2, some 1, some 1, some 1] 1 k.sigmaGrad
  follow : IsKernel [some 1, some 0, some 1] 1 k.follow
  maxChange : IsKernel [some 1, some 1, some 1] 1 k.maxChange
  bounds : IsKernel [some 1, some 1, some 1] 1 k.bounds

/-! ### Stacking -/

theorem stackAll_length (ts : List (Tree (Ten K))) : (stackAll ts).length = ts.length := by
  induction ts with
  | nil => rfl
  | cons t ts ih => rw [stackAll, List.length_cons, ih, List.length_cons]

theorem stackAll_get (ts : List (Tree (Ten K))) (i : ℕ) : (stackAll ts)[i]? = ts[i]?.map stack := by
  induction ts generalizing i with
  | nil => simp [stackAll]
  | cons t ts ih =>
    rw [stackAll]
    cases i with
    | zero => simp
    | succ i => simp [ih]

theorem stack_spec (B : List ℕ) (hpos : ∀ b ∈ B, 0 < b) (c : List ℕ) (dt dv : ℕ) (tree : Tree (Ten K)) (hs : HasShape B tree)
    (hl : ∀ idx t, Position idx B → tree.get idx = some t → t.shape = c ∧ t.dtype = dt ∧ t.device = dv) :
    (stack tree).shape = B ++ c ∧ (stack tree).dtype = dt ∧ (stack tree).device = dv ∧
      ∀ idx t, Position idx B → tree.get idx = some t → ∀ core, (stack tree).val (idx ++ core) = t.val core := by
  induction B generalizing tree with
  | nil =>
    cases tree with
    | node ts => simp [HasShape] at hs
    | leaf t =>
      obtain ⟨h1, h2, h3⟩ := hl [] t .nil rfl
      rw [stack]
      refine ⟨by simpa using h1, h2, h3, ?_⟩
      intro idx t' hi ht core
      cases hi
      simp [Tree.get] at ht
      simp [ht]
  | cons n B ih =>
    cases tree with
    | leaf t => simp [HasShape] at hs
    | node ts =>
      obtain ⟨hn, hts⟩ := hs
      have hn0 : 0 < n := hpos n (by simp)
      have key : ∀ (i : ℕ) (u : Tree (Ten K)), ts[i]? = some u → (stack u).shape = B ++ c ∧ (stack u).dtype = dt ∧ (stack u).device = dv ∧
          ∀ idx t, Position idx B → u.get idx = some t → ∀ core, (stack u).val (idx ++ core) = t.val core := by
        intro i u hu
        have hi : i < n := by rw [← hn]; exact (List.getElem?_eq_some_iff.1 hu).1
        refine ih (fun b hb => hpos b (by simp [hb])) u (hts u (List.mem_of_getElem? hu)) ?_
        intro idx t hp ht
        exact hl (i :: idx) t (.cons hi hp) (by simp [Tree.get, hu, ht])
      rw [stack]
      cases ts with
      | nil => simp at hn; omega
      | cons u us =>
        obtain ⟨k1, k2, k3, -⟩ := key 0 u rfl
        have hlen : (stackAll (u :: us)).length = n := by rw [stackAll_length, hn]
        refine ⟨?_, ?_, ?_, ?_⟩
        · simp only [stackNode, hlen]
          simp [stackAll, k1]
        · simp [stackNode, stackAll, k2]
        · simp [stackNode, stackAll, k3]
        · intro idx t hp ht core
          cases hp with
          | @cons i _ idx' _ hi hp' =>
            have hi' : i < (u :: us).length := by rw [hn]; exact hi
            have hg : (u :: us)[i]? = some (u :: us)[i] := List.getElem?_eq_getElem hi'
            simp only [Tree.get, hg, Option.bind_some] at ht
            have := (key i _ hg).2.2.2 idx' t hp' ht core
            simp only [stackNode, List.cons_append, stackAll_get, hg, Option.map_some]
            exact this

/-! ### Calls -/

omit [Inhabited K] in
/-- An argument that fits its slot. -/
def SlotFits (B : List ℕ) : Option ℕ → Arg K O → Prop
  | none, _ => True
  | some d, .tensor t => Fits B d t
  | some _, _ => False

omit [Inhabited K] in
theorem exists_common (B : List ℕ) (slots : List (Option ℕ × Arg K O)) (h : ∀ p ∈ slots, SlotFits B p.1 p.2) : ∃ B', B' <:+ B ∧ CommonBatch slots B' := by
  induction slots with
  | nil => exact ⟨[], List.nil_suffix, by simp, .inl rfl⟩
  | cons p ps ih =>
    obtain ⟨B', hB', h1, h2⟩ := ih fun q hq => h q (by simp [hq])
    have hp : batchShape p.1 p.2 <:+ B := by
      have := h p (by simp)
      obtain ⟨e, a⟩ := p
      cases e <;> cases a <;> simp_all [batchShape, SlotFits, Fits]
    by_cases hl : (batchShape p.1 p.2).length ≤ B'.length
    · refine ⟨B', hB', ?_, ?_⟩
      · intro q hq
        rcases List.mem_cons.1 hq with rfl | hq
        · exact List.suffix_of_suffix_length_le hp hB' hl
        · exact h1 q hq
      · rcases h2 with h2 | ⟨q, hq, h2⟩
        · exact .inl h2
        · exact .inr ⟨q, by simp [hq], h2⟩
    · refine ⟨batchShape p.1 p.2, hp, ?_, .inr ⟨p, by simp, rfl⟩⟩
      intro q hq
      rcases List.mem_cons.1 hq with rfl | hq
      · exact List.suffix_refl _
      · exact (h1 q hq).trans (List.suffix_of_suffix_length_le hB' hp (by omega))

omit [Inhabited K] in
theorem convertAll_any (b : Bool) (all slots : List (Option ℕ × Arg K O)) (h : Proper slots) : convertAll b all slots = .ok (slots.map Prod.snd) := by
  induction slots with
  | nil => rfl
  | cons p ps ih =>
    obtain ⟨e, a⟩ := p
    have ih' := ih fun q hq => h q (by simp [hq])
    cases e with
    | none => simp [convertAll, convert, tooSmall, Except.bind, ih']
    | some d =>
      obtain ⟨t, ht, hd⟩ := h (some d, a) (by simp) d rfl
      simp only at ht
      subst ht
      have : ¬ t.shape.length < d := by omega
      simp [convertAll, convert, tooSmall, Except.bind, ih', Arg.ndim, this]

omit [Inhabited K] in
theorem decorated_any {R : Type} (b : Bool) (slots : List (Option ℕ × Arg K O)) (h : Proper slots) (fn : List (Arg K O) → R) :
    decorated (slots.map Prod.fst) b fn (slots.map Prod.snd) = decorated (slots.map Prod.fst) false fn (slots.map Prod.snd) := by
  have hz : (slots.map Prod.fst).zip (slots.map Prod.snd) = slots := by
    induction slots with
    | nil => rfl
    | cons p ps ih => simp [ih fun q hq => h q (by simp [hq])]
  unfold decorated
  rw [hz, convertAll_any b _ _ h, convertAll_any false _ _ h]

omit [Inhabited K] in
theorem item_tensor (d : ℕ) (idx : List ℕ) (t : Ten K) : item (some d) idx (.tensor t : Arg K O) = .tensor (part d idx t) := rfl

omit [Inhabited K] in
theorem item_drop (B B' : List ℕ) (p : Option ℕ × Arg K O) (hp : batchShape p.1 p.2 <:+ B') (hB : B' <:+ B) (idx : List ℕ) (hi : idx.length = B.length) :
    item p.1 (idx.drop (B.length - B'.length)) p.2 = item p.1 idx p.2 := by
  obtain ⟨e, a⟩ := p
  cases e with
  | none => cases a <;> rfl
  | some d =>
    cases a with
    | tensor t =>
      have hl := hp.length_le
      simp only [batchShape, List.length_take] at hl
      have hb := hB.length_le
      rw [item_tensor, item_tensor]
      unfold part
      congr 2
      funext core
      congr 2
      rw [List.drop_drop, List.length_drop, hi]
      congr 1
      omega
    | _ => rfl

theorem position_drop (B B' : List ℕ) (hB : B' <:+ B) (idx : List ℕ) (hi : Position idx B) : Position (idx.drop (B.length - B'.length)) B' := by
  obtain ⟨A, rfl⟩ := hB
  have hl : (A ++ B').length - B'.length = A.length := by simp
  rw [hl]
  have := List.forall₂_drop A.length hi
  simpa [Position] using this

/-- C113 (calls): a decorated function which is called with tensors whose batch dimensions are right ends of `B` gives a tensor of that kind, whose part for each search is what the function itself gives for the parts of
the arguments. -/
theorem C113_call (B : List ℕ) (hpos : ∀ b ∈ B, 0 < b) (slots : List (Option ℕ × Arg K O)) (h : ∀ p ∈ slots, SlotFits B p.1 p.2) (d : ℕ) (fn : Kernel K O)
    (hk : IsKernel (slots.map Prod.fst) d fn) (b : Bool) :
    ∃ t, call (slots.map Prod.fst) b fn (slots.map Prod.snd) = .ok t ∧ Fits B d t ∧ ∀ idx, Position idx B → part d idx t = fn (slots.map fun p => item p.1 idx p.2) := by
  have hprop : Proper slots := by
    intro p hp e he
    have := h p hp
    obtain ⟨e', a⟩ := p
    simp only at he
    subst he
    cases a with
    | tensor t => exact ⟨t, rfl, this.1⟩
    | _ => exact this.elim
  obtain ⟨B', hB', hcb⟩ := exists_common B slots h
  obtain ⟨tree, h1, h2, h3⟩ := C60_batched slots fn hprop B' hcb
  have hpos' : ∀ b ∈ B', 0 < b := fun b hb => hpos b (hB'.mem hb)
  have h0 : Position (B'.map fun _ => 0) B' := by
    unfold Position
    rw [List.forall₂_map_left_iff, List.forall₂_same]
    exact hpos'
  have hsame : ∀ i j : List ℕ, List.Forall₂ SameMeta (slots.map fun p => item p.1 i p.2) (slots.map fun p => item p.1 j p.2) := by
    intro i j
    rw [List.forall₂_map_left_iff, List.forall₂_map_right_iff, List.forall₂_same]
    rintro ⟨e, a⟩ hp
    cases e <;> cases a <;> simp [item, SameMeta]
  have hexact : ∀ i : List ℕ, List.Forall₂ Exact (slots.map Prod.fst) (slots.map fun p => item p.1 i p.2) := by
    intro i
    rw [List.forall₂_map_left_iff, List.forall₂_map_right_iff, List.forall₂_same]
    rintro ⟨e, a⟩ hp
    have := h _ hp
    cases e <;> cases a <;> simp_all [item, Exact, SlotFits, Fits]
    omega
  let z := fn (slots.map fun p => item p.1 (B'.map fun _ => 0) p.2)
  obtain ⟨s1, s2, s3, s4⟩ := stack_spec B' hpos' z.shape z.dtype z.device tree h2 (by
    intro idx t hi ht
    rw [h3 idx hi] at ht
    cases ht
    exact hk.static _ _ (hsame _ _))
  have hzd : z.shape.length = d := hk.ndim _ (hexact _)
  have hlen : (stack tree).shape.length - d = B'.length := by rw [s1, List.length_append, hzd]; omega
  refine ⟨stack tree, ?_, ⟨?_, ?_⟩, ?_⟩
  · unfold call
    rw [decorated_any b slots hprop, h1]
    rfl
  · rw [s1, List.length_append, hzd]; omega
  · rw [hlen, s1, List.take_left]
    exact hB'
  · intro idx hi
    have hil : idx.length = B.length := hi.length_eq
    have hi' := position_drop B B' hB' idx hi
    have e1 : (slots.map fun p => item p.1 (idx.drop (B.length - B'.length)) p.2) = slots.map fun p => item p.1 idx p.2 :=
      List.map_congr_left fun p hp => item_drop B B' p (hcb.1 p hp) hB' idx hil
    have hg := h3 _ hi'
    rw [e1] at hg
    have hm := hk.static _ _ (hsame (B'.map fun _ => 0) idx)
    have hv := s4 _ _ hi' hg
    unfold part
    rw [hlen]
    generalize hr : fn (slots.map fun p => item p.1 idx p.2) = r at hm hv ⊢
    obtain ⟨sh, v, dt, dv⟩ := r
    obtain ⟨m1, m2, m3⟩ := hm
    simp only at m1 m2 m3 hv
    congr 1
    · rw [s1, List.drop_left]; exact m1
    · funext core
      rw [hil]
      exact hv core
    · rw [s2]; exact m2
    · rw [s3]; exact m3

omit [Inhabited K] in
theorem part_exact (d : ℕ) (idx : List ℕ) (t : Ten K) (h : t.shape.length = d) : part d idx t = t := by
  obtain ⟨sh, v, dt, dv⟩ := t
  simp only at h
  simp [part, h]

omit [Inhabited K] in
theorem fits_part (B : List ℕ) (d : ℕ) (idx : List ℕ) (t : Ten K) (h : Fits B d t) : (part d idx t).shape.length = d := by
  have := h.1
  simp [part]
  omega

/-- C113 (calls): for a single search (tensors with exactly the declared dimensions) a decorated function is the function itself. -/
theorem C113_single (slots : List (Option ℕ × Arg K O)) (h : ∀ p ∈ slots, Exact p.1 p.2) (d : ℕ) (fn : Kernel K O) (hk : IsKernel (slots.map Prod.fst) d fn) (b : Bool) :
    call (slots.map Prod.fst) b fn (slots.map Prod.snd) = .ok (fn (slots.map Prod.snd)) := by
  have hfit : ∀ p ∈ slots, SlotFits [] p.1 p.2 := by
    rintro ⟨e, a⟩ hp
    have := h _ hp
    cases e <;> cases a <;> simp_all [Exact, SlotFits, Fits]
  obtain ⟨t, h1, h2, h3⟩ := C113_call [] (by simp) slots hfit d fn hk b
  have h4 := h3 [] .nil
  have hd : t.shape.length = d := by
    have := h2.2.length_le
    have h5 := h2.1
    simp only [List.length_take, List.length_nil] at this
    omega
  rw [part_exact d [] t hd] at h4
  rw [h1, h4]
  congr 2
  refine List.map_congr_left ?_
  rintro ⟨e, a⟩ hp
  have := h _ hp
  cases e with
  | none => cases a <;> rfl
  | some d =>
    cases a with
    | tensor t => rw [item_tensor, part_exact d [] t this]
    | _ => exact this.elim

theorem call_parts (B : List ℕ) (hpos : ∀ b ∈ B, 0 < b) (slots : List (Option ℕ × Arg K O)) (h : ∀ p ∈ slots, SlotFits B p.1 p.2) (d : ℕ) (fn : Kernel K O)
    (hk : IsKernel (slots.map Prod.fst) d fn) (b : Bool) :
    ∃ t, call (slots.map Prod.fst) b fn (slots.map Prod.snd) = .ok t ∧ Fits B d t ∧
      ∀ idx, Position idx B → call (slots.map Prod.fst) b fn (slots.map fun p => item p.1 idx p.2) = .ok (part d idx t) := by
  obtain ⟨t, h1, h2, h3⟩ := C113_call B hpos slots h d fn hk b
  refine ⟨t, h1, h2, fun idx hi => ?_⟩
  have := C113_single (slots.map fun p => (p.1, item p.1 idx p.2)) (by
    intro p hp
    obtain ⟨⟨e, a⟩, hq, rfl⟩ := List.mem_map.1 hp
    have := h _ hq
    cases e with
    | none => cases a <;> trivial
    | some d =>
      cases a with
      | tensor t => exact fits_part B d idx t this
      | _ => exact this.elim) d fn (by simpa [Function.comp_def] using hk) b
  simp only [List.map_map, Function.comp_def] at this
  rw [this, h3 idx hi]

/-! ### CEM -/

/-- C113: the population which `cem_ask` gives for a batch of searches consists of the populations which it gives for each of them. -/
theorem C113_cem_ask (k : CemKernels K O) (hk : CemOk k) (B : List ℕ) (hpos : ∀ b ∈ B, 0 < b) (s : Cem K O) (hs : s.Fits B) (popsize : O) (z : Ten K) (hz : Fits B 2 z) :
    ∃ values, cemAsk k s popsize z = .ok values ∧ Fits B 2 values ∧ ∀ idx, Position idx B → cemAsk k (s.part idx) popsize (part 2 idx z) = .ok (part 2 idx values) := by
  obtain ⟨f1, f2, f3, f4, f5⟩ := hs
  exact call_parts B hpos [(some 1, .tensor s.center), (some 1, .tensor s.stdev), (none, .other s.ratio), (none, .other popsize), (some 2, .tensor z)]
    (by simp [SlotFits, f1, f2, hz]) 2 k.sample hk.sample false

/-- C113: `cem_tell` on a batch of searches is `cem_tell` on each of them. -/
theorem C113_cem_tell (k : CemKernels K O) (hk : CemOk k) (B : List ℕ) (hpos : ∀ b ∈ B, 0 < b) (s : Cem K O) (hs : s.Fits B) (values evals : Ten K) (hv : Fits B 2 values) (he : Fits B 1 evals) :
    ∃ s', cemTell k s values evals = .ok s' ∧ s'.Fits B ∧ ∀ idx, Position idx B → cemTell k (s.part idx) (part 2 idx values) (part 1 idx evals) = .ok (s'.part idx) := by
  obtain ⟨f1, f2, f3, f4, f5⟩ := hs
  have hfit : ∀ p ∈ [(some 1, Arg.tensor s.stdevMin), (some 1, .tensor s.stdevMax), (some 1, .tensor s.stdevMaxChange), (none, .other s.ratio), (none, .other s.maximize), (some 1, .tensor s.center),
      (some 1, .tensor s.stdev), (some 2, .tensor values), (some 1, .tensor evals)], SlotFits B p.1 p.2 := by
    simp [SlotFits, f1, f2, f3, f4, f5, hv, he]
  obtain ⟨c, c1, c2, c3⟩ := call_parts B hpos _ hfit 1 k.newCenter hk.newCenter false
  obtain ⟨d, d1, d2, d3⟩ := call_parts B hpos _ hfit 1 k.newStdev hk.newStdev false
  refine ⟨⟨c, d, s.stdevMin, s.stdevMax, s.stdevMaxChange, s.ratio, s.maximize⟩, ?_, ⟨c2, d2, f3, f4, f5⟩, fun idx hi => ?_⟩
  · simp only [List.map_cons, List.map_nil] at c1 d1
    simp only [cemTell, c1, d1, Except.bind]
  · have e1 := c3 idx hi
    have e2 := d3 idx hi
    simp only [List.map_cons, List.map_nil, item_tensor] at e1 e2
    simp only [item] at e1 e2
    simp only [cemTell, Cem.part, e1, e2, Except.bind]

/-- C113: after any number of `cem_tell`s, each search of the batch is where it would be had it been run on its own. -/
theorem C113_cem_tells (k : CemKernels K O) (hk : CemOk k) (B : List ℕ) (hpos : ∀ b ∈ B, 0 < b) (s : Cem K O) (hs : s.Fits B) (data : List (Ten K × Ten K))
    (hd : ∀ p ∈ data, Fits B 2 p.1 ∧ Fits B 1 p.2) :
    ∃ s', cemTells k s data = .ok s' ∧ s'.Fits B ∧ ∀ idx, Position idx B → cemTells k (s.part idx) (data.map fun p => (part 2 idx p.1, part 1 idx p.2)) = .ok (s'.part idx) := by
  induction data generalizing s with
  | nil => exact ⟨s, rfl, hs, fun _ _ => rfl⟩
  | cons p data ih =>
    obtain ⟨v, e⟩ := p
    obtain ⟨hv, he⟩ := hd _ List.mem_cons_self
    obtain ⟨s1, t1, t2, t3⟩ := C113_cem_tell k hk B hpos s hs v e hv he
    obtain ⟨s2, u1, u2, u3⟩ := ih s1 t2 fun q hq => hd q (by simp [hq])
    refine ⟨s2, by rw [cemTells, t1]; exact u1, u2, fun idx hi => ?_⟩
    simp only [List.map_cons]
    rw [cemTells, t3 idx hi]
    exact u3 idx hi

/-- C113: whole generations of a batch of searches (ask, evaluate with a batchable fitness function, tell) are the generations of the searches, each with its own draws. -/
theorem C113_cem_run (k : CemKernels K O) (hk : CemOk k) (fitness : Kernel K O) (hf : IsKernel [some 2] 1 fitness) (popsize : O) (B : List ℕ) (hpos : ∀ b ∈ B, 0 < b) (s : Cem K O) (hs : s.Fits B)
    (draws : List (Ten K)) (hd : ∀ z ∈ draws, Fits B 2 z) :
    ∃ s', cemRun k fitness popsize s draws = .ok s' ∧ s'.Fits B ∧ ∀ idx, Position idx B → cemRun k fitness popsize (s.part idx) (draws.map (part 2 idx)) = .ok (s'.part idx) := by
  induction draws generalizing s with
  | nil => exact ⟨s, rfl, hs, fun _ _ => rfl⟩
  | cons z draws ih =>
    obtain ⟨v, a1, a2, a3⟩ := C113_cem_ask k hk B hpos s hs popsize z (hd z (by simp))
    obtain ⟨e, e1, e2, e3⟩ := call_parts B hpos [(some 2, (.tensor v : Arg K O))] (by simp [SlotFits, a2]) 1 fitness hf false
    simp only [List.map_cons, List.map_nil, item_tensor] at e1 e3
    obtain ⟨s1, t1, t2, t3⟩ := C113_cem_tell k hk B hpos s hs v e a2 e2
    obtain ⟨s2, u1, u2, u3⟩ := ih s1 t2 fun q hq => hd q (by simp [hq])
    refine ⟨s2, ?_, u2, fun idx hi => ?_⟩
    · rw [cemRun, a1]
      simp only [Except.bind, e1, t1]
      exact u1
    · rw [List.map_cons, cemRun, a3 idx hi]
      simp only [Except.bind, e3 idx hi, t3 idx hi]
      exact u3 idx hi

/-! ### Optimisers -/

theorem newFields_parts (B : List ℕ) (hpos : ∀ b ∈ B, 0 < b) (slots : List (Option ℕ × Arg K O)) (h : ∀ p ∈ slots, SlotFits B p.1 p.2) (o : Optimizer K O)
    (ho : ∀ p ∈ o, ∀ fn, p.2 = some fn → IsKernel (slots.map Prod.fst) p.1 fn) (fields : List (Ten K)) (hf : OptFits o B fields) :
    ∃ fs, newFields (slots.map Prod.fst) (slots.map Prod.snd) o fields = .ok fs ∧ OptFits o B fs ∧
      ∀ idx, Position idx B → newFields (slots.map Prod.fst) (slots.map fun p => item p.1 idx p.2) o (optPart o idx fields) = .ok (optPart o idx fs) := by
  induction hf with
  | nil => exact ⟨[], rfl, .nil, fun _ _ => rfl⟩
  | @cons p f o fields hpf hrest ih =>
    obtain ⟨d, u⟩ := p
    obtain ⟨fs, g1, g2, g3⟩ := ih fun q hq => ho q (by simp [hq])
    cases u with
    | none =>
      refine ⟨f :: fs, by rw [newFields, g1]; rfl, .cons hpf g2, fun idx hi => ?_⟩
      have := g3 idx hi
      simp only [optPart, List.zipWith_cons_cons] at this ⊢
      rw [newFields, this]; rfl
    | some fn =>
      obtain ⟨t, t1, t2, t3⟩ := call_parts B hpos slots h d fn (ho (d, some fn) (by simp) fn rfl) false
      refine ⟨t :: fs, by rw [newFields, t1, g1]; rfl, .cons t2 g2, fun idx hi => ?_⟩
      have := g3 idx hi
      simp only [optPart, List.zipWith_cons_cons] at this ⊢
      rw [newFields, t3 idx hi, this]; rfl

/-- C113: a step of a functional optimiser (`adam_tell`, `clipup_tell`, `sgd_tell`) on a batch of optimisations is a step on each of them. -/
theorem C113_optimizer_tell (o : Optimizer K O) (ho : OptOk o) (B : List ℕ) (hpos : ∀ b ∈ B, 0 < b) (fields : List (Ten K)) (hf : OptFits o B fields) (g : Ten K) (hg : Fits B 1 g) :
    ∃ fs, optTell o fields g = .ok fs ∧ OptFits o B fs ∧ ∀ idx, Position idx B → optTell o (optPart o idx fields) (part 1 idx g) = .ok (optPart o idx fs) := by
  have z1 : ∀ (o : Optimizer K O) (fields : List (Ten K)), OptFits o B fields →
      ((List.zipWith (fun (p : ℕ × Option (Kernel K O)) t => (some p.1, (.tensor t : Arg K O))) o fields).map Prod.fst = (o.map fun p => some p.1) ∧
      (List.zipWith (fun (p : ℕ × Option (Kernel K O)) t => (some p.1, (.tensor t : Arg K O))) o fields).map Prod.snd = fields.map .tensor ∧
      (∀ idx, ((List.zipWith (fun (p : ℕ × Option (Kernel K O)) t => (some p.1, (.tensor t : Arg K O))) o fields).map fun p => item p.1 idx p.2) = (optPart o idx fields).map .tensor) ∧
      ∀ p ∈ List.zipWith (fun (p : ℕ × Option (Kernel K O)) t => (some p.1, (.tensor t : Arg K O))) o fields, SlotFits B p.1 p.2) := by
    intro o fields h
    induction h with
    | nil => simp [optPart]
    | cons hp _ ih =>
      obtain ⟨a, b, c, e⟩ := ih
      refine ⟨by simp [a], by simp [b], fun idx => ?_, ?_⟩
      · have := c idx
        simp only [optPart] at this
        simp [this, optPart, item_tensor]
      · intro p hp'
        rcases List.mem_cons.1 hp' with rfl | hp'
        · exact hp
        · exact e p hp'
  obtain ⟨a, b, c, e⟩ := z1 o fields hf
  have key := newFields_parts B hpos ((some 1, .tensor g) :: List.zipWith (fun (p : ℕ × Option (Kernel K O)) t => (some p.1, (.tensor t : Arg K O))) o fields) (by
    intro p hp
    rcases List.mem_cons.1 hp with rfl | hp
    · exact hg
    · exact e p hp) o (by
    intro p hp fn hfn
    have := ho p hp fn hfn
    simpa [a] using this) fields hf
  simp only [List.map_cons, a, b, c, item_tensor] at key
  exact key

/-- C113: after any number of steps with gradients, each optimisation of the batch is where it would be on its own. -/
theorem C113_optimizer_tells (o : Optimizer K O) (ho : OptOk o) (B : List ℕ) (hpos : ∀ b ∈ B, 0 < b) (fields : List (Ten K)) (hf : OptFits o B fields) (gs : List (Ten K)) (hg : ∀ g ∈ gs, Fits B 1 g) :
    ∃ fs, optTells o fields gs = .ok fs ∧ OptFits o B fs ∧ ∀ idx, Position idx B → optTells o (optPart o idx fields) (gs.map (part 1 idx)) = .ok (optPart o idx fs) := by
  induction gs generalizing fields with
  | nil => exact ⟨fields, rfl, hf, fun _ _ => rfl⟩
  | cons g gs ih =>
    obtain ⟨s1, t1, t2, t3⟩ := C113_optimizer_tell o ho B hpos fields hf g (hg g (by simp))
    obtain ⟨s2, u1, u2, u3⟩ := ih s1 t2 fun q hq => hg q (by simp [hq])
    refine ⟨s2, by rw [optTells, t1]; exact u1, u2, fun idx hi => ?_⟩
    rw [List.map_cons, optTells, t3 idx hi]
    exact u3 idx hi

/-! ### PGPE -/

theorem optAsk_parts (o : Optimizer K O) (u : Option (Kernel K O)) (B : List ℕ) (fields : List (Ten K)) (hf : OptFits ((1, u) :: o) B fields) :
    ∃ c, optAsk fields = .ok c ∧ Fits B 1 c ∧ ∀ idx, optAsk (optPart ((1, u) :: o) idx fields) = .ok (part 1 idx c) := by
  cases hf with
  | cons h _ => exact ⟨_, rfl, h, fun _ => rfl⟩

/-- C113: the population which `pgpe_ask` gives for a batch of searches consists of the populations which it gives for each of them. The center is the first field of the optimiser, a vector. -/
theorem C113_pgpe_ask (k : PgpeKernels K O) (hk : PgpeOk k) (u : Option (Kernel K O)) (o : Optimizer K O) (B : List ℕ) (hpos : ∀ b ∈ B, 0 < b) (s : Pgpe K O) (hs : s.Fits ((1, u) :: o) B) (popsize : O) (z : Ten K)
    (hz : Fits B 2 z) :
    ∃ values, pgpeAsk k s popsize z = .ok values ∧ Fits B 2 values ∧
      ∀ idx, Position idx B → pgpeAsk k (s.part ((1, u) :: o) idx) popsize (part 2 idx z) = .ok (part 2 idx values) := by
  obtain ⟨f0, f1, -⟩ := hs
  obtain ⟨c, c1, c2, c3⟩ := optAsk_parts o u B s.optimizer f0
  obtain ⟨v, v1, v2, v3⟩ := call_parts B hpos [(none, .other popsize), (some 1, .tensor c), (some 1, .tensor s.stdev), (some 2, .tensor z)]
    (by simp [SlotFits, c2, f1, hz]) 2 k.sample hk.sample false
  refine ⟨v, ?_, v2, fun idx hi => ?_⟩
  · simp only [List.map_cons, List.map_nil] at v1
    simp only [pgpeAsk, c1, Except.bind, v1]
  · have := v3 idx hi
    simp only [List.map_cons, List.map_nil, item_tensor] at this
    simp only [item] at this
    simp only [pgpeAsk, Pgpe.part, c3, Except.bind, this]

theorem modify_parts (k : PgpeKernels K O) (hk : PgpeOk k) (B : List ℕ) (hpos : ∀ b ∈ B, 0 < b) (original target lb ub mc : Ten K) (h1 : Fits B 1 original) (h2 : Fits B 1 target) (h3 : Fits B 1 lb)
    (h4 : Fits B 1 ub) (h5 : Fits B 1 mc) :
    ∃ r, modify k original target lb ub mc = .ok r ∧ Fits B 1 r ∧
      ∀ idx, Position idx B → modify k (part 1 idx original) (part 1 idx target) (part 1 idx lb) (part 1 idx ub) (part 1 idx mc) = .ok (part 1 idx r) := by
  obtain ⟨c, c1, c2, c3⟩ := call_parts B hpos [(some 1, (.tensor original : Arg K O)), (some 1, .tensor target), (some 1, .tensor mc)] (by simp [SlotFits, h1, h2, h5]) 1 k.maxChange hk.maxChange true
  obtain ⟨v, v1, v2, v3⟩ := call_parts B hpos [(some 1, (.tensor c : Arg K O)), (some 1, .tensor lb), (some 1, .tensor ub)] (by simp [SlotFits, c2, h3, h4]) 1 k.bounds hk.bounds true
  simp only [List.map_cons, List.map_nil, item_tensor] at c1 c3 v1 v3
  refine ⟨v, by simp only [modify, c1, Except.bind, v1], v2, fun idx hi => ?_⟩
  simp only [modify, c3 idx hi, Except.bind, v3 idx hi]

/-- C113: `pgpe_tell` on a batch of searches is `pgpe_tell` on each of them. -/
theorem C113_pgpe_tell (k : PgpeKernels K O) (hk : PgpeOk k) (u : Option (Kernel K O)) (o : Optimizer K O) (ho : OptOk ((1, u) :: o)) (B : List ℕ) (hpos : ∀ b ∈ B, 0 < b) (s : Pgpe K O)
    (hs : s.Fits ((1, u) :: o) B) (values evals : Ten K) (hv : Fits B 2 values) (he : Fits B 1 evals) :
    ∃ s', pgpeTell k ((1, u) :: o) s values evals = .ok s' ∧ s'.Fits ((1, u) :: o) B ∧
      ∀ idx, Position idx B → pgpeTell k ((1, u) :: o) (s.part ((1, u) :: o) idx) (part 2 idx values) (part 1 idx evals) = .ok (s'.part ((1, u) :: o) idx) := by
  obtain ⟨f0, f1, f2, f3, f4, f5⟩ := hs
  obtain ⟨c, c1, c2, c3⟩ := optAsk_parts o u B s.optimizer f0
  have hfit : ∀ p ∈ [(none, Arg.other s.sense), (none, .other s.ranking), (some 2, .tensor values), (some 1, .tensor evals), (some 1, .tensor c), (some 1, .tensor s.stdev)], SlotFits B p.1 p.2 := by
    simp [SlotFits, c2, f1, hv, he]
  obtain ⟨m, m1, m2, m3⟩ := call_parts B hpos _ hfit 1 k.muGrad hk.muGrad false
  obtain ⟨g, g1, g2, g3⟩ := call_parts B hpos _ hfit 1 k.sigmaGrad hk.sigmaGrad false
  obtain ⟨fs, o1, o2, o3⟩ := C113_optimizer_tell ((1, u) :: o) ho B hpos s.optimizer f0 m m2
  obtain ⟨t, t1, t2, t3⟩ := call_parts B hpos [(some 1, (.tensor s.stdev : Arg K O)), (some 0, .tensor s.stdevLr), (some 1, .tensor g)] (by simp [SlotFits, f1, f2, g2]) 1 k.follow hk.follow false
  obtain ⟨r, r1, r2, r3⟩ := modify_parts k hk B hpos s.stdev t s.stdevMin s.stdevMax s.stdevMaxChange f1 t2 f3 f4 f5
  simp only [List.map_cons, List.map_nil, item_tensor] at m1 m3 g1 g3 t1 t3
  simp only [item] at m3 g3
  refine ⟨⟨fs, r, s.stdevLr, s.stdevMin, s.stdevMax, s.stdevMaxChange, s.ranking, s.sense⟩, ?_, ⟨o2, r2, f2, f3, f4, f5⟩, fun idx hi => ?_⟩
  · simp only [pgpeTell, c1, Except.bind, m1, g1, o1, t1, r1]
  · simp only [pgpeTell, Pgpe.part, c3, Except.bind, m3 idx hi, g3 idx hi, o3 idx hi, t3 idx hi, r3 idx hi]

/-- C113: after any number of `pgpe_tell`s, each search of the batch is where it would be had it been run on its own. -/
theorem C113_pgpe_tells (k : PgpeKernels K O) (hk : PgpeOk k) (u : Option (Kernel K O)) (o : Optimizer K O) (ho : OptOk ((1, u) :: o)) (B : List ℕ) (hpos : ∀ b ∈ B, 0 < b) (s : Pgpe K O)
    (hs : s.Fits ((1, u) :: o) B) (data : List (Ten K × Ten K)) (hd : ∀ p ∈ data, Fits B 2 p.1 ∧ Fits B 1 p.2) :
    ∃ s', pgpeTells k ((1, u) :: o) s data = .ok s' ∧ s'.Fits ((1, u) :: o) B ∧
      ∀ idx, Position idx B → pgpeTells k ((1, u) :: o) (s.part ((1, u) :: o) idx) (data.map fun p => (part 2 idx p.1, part 1 idx p.2)) = .ok (s'.part ((1, u) :: o) idx) := by
  induction data generalizing s with
  | nil => exact ⟨s, rfl, hs, fun _ _ => rfl⟩
  | cons p data ih =>
    obtain ⟨v, e⟩ := p
    obtain ⟨hv, he⟩ := hd _ List.mem_cons_self
    obtain ⟨s1, t1, t2, t3⟩ := C113_pgpe_tell k hk u o ho B hpos s hs v e hv he
    obtain ⟨s2, u1, u2, u3⟩ := ih s1 t2 fun q hq => hd q (by simp [hq])
    refine ⟨s2, by rw [pgpeTells, t1]; exact u1, u2, fun idx hi => ?_⟩
    simp only [List.map_cons]
    rw [pgpeTells, t3 idx hi]
    exact u3 idx hi

/-- C113: whole generations of a batch of searches are the generations of the searches, each with its own draws. -/
theorem C113_pgpe_run (k : PgpeKernels K O) (hk : PgpeOk k) (u : Option (Kernel K O)) (o : Optimizer K O) (ho : OptOk ((1, u) :: o)) (fitness : Kernel K O) (hf : IsKernel [some 2] 1 fitness) (popsize : O)
    (B : List ℕ) (hpos : ∀ b ∈ B, 0 < b) (s : Pgpe K O) (hs : s.Fits ((1, u) :: o) B) (draws : List (Ten K)) (hd : ∀ z ∈ draws, Fits B 2 z) :
    ∃ s', pgpeRun k ((1, u) :: o) fitness popsize s draws = .ok s' ∧ s'.Fits ((1, u) :: o) B ∧
      ∀ idx, Position idx B → pgpeRun k ((1, u) :: o) fitness popsize (s.part ((1, u) :: o) idx) (draws.map (part 2 idx)) = .ok (s'.part ((1, u) :: o) idx) := by
  induction draws generalizing s with
  | nil => exact ⟨s, rfl, hs, fun _ _ => rfl⟩
  | cons z draws ih =>
    obtain ⟨v, a1, a2, a3⟩ := C113_pgpe_ask k hk u o B hpos s hs popsize z (hd z (by simp))
    obtain ⟨e, e1, e2, e3⟩ := call_parts B hpos [(some 2, (.tensor v : Arg K O))] (by simp [SlotFits, a2]) 1 fitness hf false
    simp only [List.map_cons, List.map_nil, item_tensor] at e1 e3
    obtain ⟨s1, t1, t2, t3⟩ := C113_pgpe_tell k hk u o ho B hpos s hs v e a2 e2
    obtain ⟨s2, u1, u2, u3⟩ := ih s1 t2 fun q hq => hd q (by simp [hq])
    refine ⟨s2, ?_, u2, fun idx hi => ?_⟩
    · rw [pgpeRun, a1]
      simp only [Except.bind, e1, t1]
      exact u1
    · rw [List.map_cons, pgpeRun, a3 idx hi]
      simp only [Except.bind, e3 idx hi, t3 idx hi]
      exact u3 idx hi

/-! ### The optimisers of the library -/

/-- C113: a step of Adam on a batch: the rate, the betas and epsilon are kept, and each optimisation gets the center, the moments and the step count computed from its own part of the state and of the gradient; scalars can
be shared or given for each optimisation. -/
theorem C113_adam (kc km kv kt : Kernel K O) (hc : IsKernel [some 1, some 1, some 0, some 0, some 0, some 0, some 1, some 1, some 0] 1 kc)
    (hm : IsKernel [some 1, some 1, some 0, some 0, some 0, some 0, some 1, some 1, some 0] 1 km) (hv : IsKernel [some 1, some 1, some 0, some 0, some 0, some 0, some 1, some 1, some 0] 1 kv)
    (ht : IsKernel [some 1, some 1, some 0, some 0, some 0, some 0, some 1, some 1, some 0] 0 kt) (B : List ℕ) (hpos : ∀ b ∈ B, 0 < b) (g center lr b1 b2 eps m v t : Ten K)
    (f0 : Fits B 1 g) (f1 : Fits B 1 center) (f2 : Fits B 0 lr) (f3 : Fits B 0 b1) (f4 : Fits B 0 b2) (f5 : Fits B 0 eps) (f6 : Fits B 1 m) (f7 : Fits B 1 v) (f8 : Fits B 0 t) :
    ∃ center' m' v' t', optTell (adam kc km kv kt) [center, lr, b1, b2, eps, m, v, t] g = .ok [center', lr, b1, b2, eps, m', v', t'] ∧
      ∀ idx, Position idx B →
        let args : List (Arg K O) := [part 1 idx g, part 1 idx center, part 0 idx lr, part 0 idx b1, part 0 idx b2, part 0 idx eps, part 1 idx m, part 1 idx v, part 0 idx t].map .tensor
        part 1 idx center' = kc args ∧ part 1 idx m' = km args ∧ part 1 idx v' = kv args ∧ part 0 idx t' = kt args := by
  have hfit : ∀ p ∈ [(some 1, (.tensor g : Arg K O)), (some 1, .tensor center), (some 0, .tensor lr), (some 0, .tensor b1), (some 0, .tensor b2), (some 0, .tensor eps), (some 1, .tensor m),
      (some 1, .tensor v), (some 0, .tensor t)], SlotFits B p.1 p.2 := by
    simp [SlotFits, f0, f1, f2, f3, f4, f5, f6, f7, f8]
  obtain ⟨c', c1, -, c3⟩ := C113_call B hpos _ hfit 1 kc hc false
  obtain ⟨m', m1, -, m3⟩ := C113_call B hpos _ hfit 1 km hm false
  obtain ⟨v', v1, -, v3⟩ := C113_call B hpos _ hfit 1 kv hv false
  obtain ⟨t', t1, -, t3⟩ := C113_call B hpos _ hfit 0 kt ht false
  simp only [List.map_cons, List.map_nil] at c1 m1 v1 t1
  refine ⟨c', m', v', t', ?_, fun idx hi => ⟨c3 idx hi, m3 idx hi, v3 idx hi, t3 idx hi⟩⟩
  simp only [optTell, adam, List.map_cons, List.map_nil, newFields, c1, m1, v1, t1, Except.bind]

/-- C113: a step of ClipUp on a batch. -/
theorem C113_clipup (kc kv : Kernel K O) (hc : IsKernel [some 1, some 1, some 1, some 0, some 0, some 0] 1 kc) (hv : IsKernel [some 1, some 1, some 1, some 0, some 0, some 0] 1 kv)
    (B : List ℕ) (hpos : ∀ b ∈ B, 0 < b) (g center v lr momentum maxSpeed : Ten K) (f0 : Fits B 1 g) (f1 : Fits B 1 center) (f2 : Fits B 1 v) (f3 : Fits B 0 lr) (f4 : Fits B 0 momentum)
    (f5 : Fits B 0 maxSpeed) :
    ∃ center' v', optTell (clipup kc kv) [center, v, lr, momentum, maxSpeed] g = .ok [center', v', lr, momentum, maxSpeed] ∧
      ∀ idx, Position idx B →
        let args : List (Arg K O) := [part 1 idx g, part 1 idx center, part 1 idx v, part 0 idx lr, part 0 idx momentum, part 0 idx maxSpeed].map .tensor
        part 1 idx center' = kc args ∧ part 1 idx v' = kv args := by
  have hfit : ∀ p ∈ [(some 1, (.tensor g : Arg K O)), (some 1, .tensor center), (some 1, .tensor v), (some 0, .tensor lr), (some 0, .tensor momentum), (some 0, .tensor maxSpeed)], SlotFits B p.1 p.2 := by
    simp [SlotFits, f0, f1, f2, f3, f4, f5]
  obtain ⟨c', c1, -, c3⟩ := C113_call B hpos _ hfit 1 kc hc false
  obtain ⟨v', v1, -, v3⟩ := C113_call B hpos _ hfit 1 kv hv false
  simp only [List.map_cons, List.map_nil] at c1 v1
  refine ⟨c', v', ?_, fun idx hi => ⟨c3 idx hi, v3 idx hi⟩⟩
  simp only [optTell, clipup, List.map_cons, List.map_nil, newFields, c1, v1, Except.bind]

/-- C113: a step of SGD on a batch. -/
theorem C113_sgd (kc kv : Kernel K O) (hc : IsKernel [some 1, some 1, some 1, some 0, some 0] 1 kc) (hv : IsKernel [some 1, some 1, some 1, some 0, some 0] 1 kv)
    (B : List ℕ) (hpos : ∀ b ∈ B, 0 < b) (g center v lr momentum : Ten K) (f0 : Fits B 1 g) (f1 : Fits B 1 center) (f2 : Fits B 1 v) (f3 : Fits B 0 lr) (f4 : Fits B 0 momentum) :
    ∃ center' v', optTell (sgd kc kv) [center, v, lr, momentum] g = .ok [center', v', lr, momentum] ∧
      ∀ idx, Position idx B →
        let args : List (Arg K O) := [part 1 idx g, part 1 idx center, part 1 idx v, part 0 idx lr, part 0 idx momentum].map .tensor
        part 1 idx center' = kc args ∧ part 1 idx v' = kv args := by
  have hfit : ∀ p ∈ [(some 1, (.tensor g : Arg K O)), (some 1, .tensor center), (some 1, .tensor v), (some 0, .tensor lr), (some 0, .tensor momentum)], SlotFits B p.1 p.2 := by
    simp [SlotFits, f0, f1, f2, f3, f4]
  obtain ⟨c', c1, -, c3⟩ := C113_call B hpos _ hfit 1 kc hc false
  obtain ⟨v', v1, -, v3⟩ := C113_call B hpos _ hfit 1 kv hv false
  simp only [List.map_cons, List.map_nil] at c1 v1
  refine ⟨c', v', ?_, fun idx hi => ⟨c3 idx hi, v3 idx hi⟩⟩
  simp only [optTell, sgd, List.map_cons, List.map_nil, newFields, c1, v1, Except.bind]

/-! ### Non-vacuity -/

/-- A kernel whose result has the shape, dtype and device of one of its arguments. -/
def likeArg (i d : ℕ) (f : List (Arg K O) → List ℕ → K) : Kernel K O := fun as =>
  match as[i]? with
  | some (.tensor t) => { t with val := f as }
  | _ => ⟨List.replicate d 0, f as, 0, 0⟩

/-- A kernel whose result is a vector with an entry for each row. -/
def rowKernel (f : List (Arg K O) → List ℕ → K) : Kernel K O := fun as =>
  match as.head? with
  | some (.tensor t) => { t with shape := [t.shape.headD 0], val := f as }
  | _ => ⟨[0], f as, 0, 0⟩

omit [Inhabited K] in
theorem likeArg_isKernel (expected : List (Option ℕ)) (i d : ℕ) (h : expected[i]? = some (some d)) (f : List (Arg K O) → List ℕ → K) : IsKernel expected d (likeArg i d f) where
  static as bs hs := by
    have hlen := hs.length_eq
    by_cases hi : i < as.length
    · have hi' : i < bs.length := by omega
      have := hs.get hi hi'
      simp only [List.get_eq_getElem] at this
      simp only [likeArg, List.getElem?_eq_getElem hi, List.getElem?_eq_getElem hi']
      revert this
      cases as[i] <;> cases bs[i] <;> simp [SameMeta]
    · simp [likeArg, List.getElem?_eq_none (Nat.le_of_not_lt hi), List.getElem?_eq_none (show bs.length ≤ i by omega)]
  ndim as hs := by
    have hi : i < expected.length := (List.getElem?_eq_some_iff.1 h).1
    have hi' : i < as.length := by have := hs.length_eq; omega
    have := hs.get hi hi'
    simp only [List.get_eq_getElem, (List.getElem?_eq_some_iff.1 h).2] at this
    simp only [likeArg, List.getElem?_eq_getElem hi']
    revert this
    cases as[i] <;> simp [Exact]

omit [Inhabited K] in
theorem rowKernel_isKernel (f : List (Arg K O) → List ℕ → K) : IsKernel [some 2] 1 (rowKernel f) where
  static as bs hs := by
    cases hs with
    | nil => simp [rowKernel]
    | @cons a b _ _ hab _ =>
      revert hab
      cases a <;> cases b <;> simp [SameMeta, rowKernel]
      exact fun a b c => ⟨by rw [a], b, c⟩
  ndim as hs := by
    cases hs with
    | @cons _ a _ _ ha _ => cases a <;> simp_all [Exact, rowKernel]

/-- All kernels of CEM. -/
example (f : List (Arg ℤ ℕ) → List ℕ → ℤ) : CemOk ⟨likeArg 4 2 f, likeArg 5 1 f, likeArg 6 1 f⟩ :=
  ⟨likeArg_isKernel _ 4 2 rfl f, likeArg_isKernel _ 5 1 rfl f, likeArg_isKernel _ 6 1 rfl f⟩

/-- All kernels of PGPE. -/
example (f : List (Arg ℤ ℕ) → List ℕ → ℤ) : PgpeOk ⟨likeArg 3 2 f, likeArg 4 1 f, likeArg 5 1 f, likeArg 0 1 f, likeArg 0 1 f, likeArg 0 1 f⟩ :=
  ⟨likeArg_isKernel _ 3 2 rfl f, likeArg_isKernel _ 4 1 rfl f, likeArg_isKernel _ 5 1 rfl f, likeArg_isKernel _ 0 1 rfl f, likeArg_isKernel _ 0 1 rfl f, likeArg_isKernel _ 0 1 rfl f⟩

/-- The optimisers of the library. -/
example (f : List (Arg ℤ ℕ) → List ℕ → ℤ) : OptOk (adam (likeArg 1 1 f) (likeArg 6 1 f) (likeArg 7 1 f) (likeArg 8 0 f)) := by
  intro p hp fn hfn
  simp only [adam, List.mem_cons, List.not_mem_nil, or_false] at hp
  rcases hp with rfl | rfl | rfl | rfl | rfl | rfl | rfl | rfl <;> cases hfn
  · exact likeArg_isKernel _ 1 1 rfl f
  · exact likeArg_isKernel _ 6 1 rfl f
  · exact likeArg_isKernel _ 7 1 rfl f
  · exact likeArg_isKernel _ 8 0 rfl f

/-- The center after a step of SGD without momentum: two optimisations with a shared gradient and learning rates of their own. -/
def exSgd : Kernel ℤ ℕ := likeArg 1 1 fun as idx =>
  match as with
  | [.tensor g, .tensor c, _, .tensor lr, _] => c.val idx + lr.val [] * g.val idx
  | _ => 0

example : (optTell (sgd exSgd (likeArg 2 1 fun _ _ => 0)) [⟨[2, 3], fun i => 10 * (i.getD 0 0) + i.getD 1 0, 1, 0⟩, ⟨[3], fun _ => 0, 1, 0⟩, ⟨[2], fun i => 100 * (i.getD 0 0 + 1), 1, 0⟩, ⟨[], fun _ => 0, 1, 0⟩]
    ⟨[3], fun i => i.getD 0 0, 1, 0⟩).toOption.map (fun fs => fs.map fun t => (t.shape, t.val [1, 2])) =
    some [([2, 3], 412), ([2, 3], 0), ([2], 200), ([], 0)] := by decide +kernel

end EvoTorch.BatchedSearch
