import Verif.Props.RunningNorm
/-!
C182: the coordinates of the observations are kept apart: a NaN or an infinity spoils its own coordinate, until the next reset, and no other.
-/
namespace EvoTorch.RunningNorm
variable {K : Type} [Field K] [LinearOrder K] {d : Nat}

/-! ### What is claimed -/

/-- What the code does on a history whose observations may hold NaN and infinities. -/
def runFlt : Spec.History (Flt K) d → Except PyErr (RN K d)
  | .empty => .ok RN.empty
  | .single h x => (runFlt h).bind fun s => s.update (.single x) none
  | .batch h rows => (runFlt h).bind fun s => s.update (.batch rows) none
  | .masked h rows mask => (runFlt h).bind fun s => s.update (.batch rows) (some mask)
  | .merge h other => (runFlt h).bind fun s => (runFlt other).bind fun o => s.merge o none true
  | .reset h => (runFlt h).map fun _ => RN.empty

/-- Neither NaN nor infinite. -/
def Finite (a : Flt K) : Prop := ∃ x, a = .fin x

/-- How many observations were counted since the last reset. -/
def shown : Spec.History (Flt K) d → ℕ
  | .empty => 0
  | .single h _ => shown h + 1
  | .batch h rows => shown h + rows.length
  | .masked h _ mask => shown h + mask.count true
  | .merge h other => shown h + shown other
  | .reset _ => 0

/-- Since the last reset, the normaliser, or one that was merged into it, was given an observation whose coordinate `j` is not finite; whether a mask left it out or not. -/
def Tainted (j : Fin d) : Spec.History (Flt K) d → Prop
  | .empty => False
  | .single h x => Tainted j h ∨ ¬Finite (x j)
  | .batch h rows => Tainted j h ∨ ∃ x ∈ rows, ¬Finite (x j)
  | .masked h rows _ => Tainted j h ∨ ∃ x ∈ rows, ¬Finite (x j)
  | .merge h other => Tainted j h ∨ (Tainted j other ∧ 0 < shown other)
  | .reset _ => False

/-- The two histories differ at most in coordinates other than `j`. -/
inductive SameAt (j : Fin d) : Spec.History (Flt K) d → Spec.History (Flt K) d → Prop where
  | empty : SameAt j .empty .empty
  | single {h h' x x'} : SameAt j h h' → x j = x' j → SameAt j (.single h x) (.single h' x')
  | batch {h h' rows rows'} : SameAt j h h' → List.Forall₂ (fun x x' => x j = x' j) rows rows' → SameAt j (.batch h rows) (.batch h' rows')
  | masked {h h' rows rows' mask} : SameAt j h h' → List.Forall₂ (fun x x' => x j = x' j) rows rows' → SameAt j (.masked h rows mask) (.masked h' rows' mask)
  | merge {h h' o o'} : SameAt j h h' → SameAt j o o' → SameAt j (.merge h o) (.merge h' o')
  | reset {h h'} : SameAt j h h' → SameAt j (.reset h) (.reset h')

/-- A finite history, with its numbers as floats. -/
def embHistory : Spec.History K d → Spec.History (Flt K) d
  | .empty => .empty
  | .single h x => .single (embHistory h) (emb x)
  | .batch h rows => .batch (embHistory h) (rows.map emb)
  | .masked h rows mask => .masked (embHistory h) (rows.map emb) mask
  | .merge h other => .merge (embHistory h) (embHistory other)
  | .reset h => .reset (embHistory h)

theorem runFlt_emb (h : Spec.History K d) : runFlt (embHistory h) = run h := by
  induction h <;> simp_all [embHistory, runFlt, run]

/-! ### A coordinate that is not finite -/

/-- What the sum of squares is then. -/
def Spoilt (q : Flt K) : Prop := q = .pinf ∨ q = .nan

omit [LinearOrder K] in
theorem add_infinite {a b : Flt K} (h : ¬Finite a ∨ ¬Finite b) : ¬Finite (Flt.add a b) := by
  cases a <;> cases b <;> simp_all [Finite, Flt.add]

omit [LinearOrder K] in
theorem add_ninf {a b : Flt K} (ha : a ≠ .ninf) (hb : b ≠ .ninf) : Flt.add a b ≠ .ninf := by
  cases a <;> cases b <;> simp_all [Flt.add]

omit [LinearOrder K] in
theorem add_spoilt {a b : Flt K} (ha : a ≠ .ninf) (hb : b ≠ .ninf) (h : Spoilt a ∨ Spoilt b) : Spoilt (Flt.add a b) := by
  cases a <;> cases b <;> simp_all [Spoilt, Flt.add]

theorem sq_ninf (a : Flt K) : Flt.mul a a ≠ .ninf := by
  cases a <;> simp [Flt.mul]

theorem sq_spoilt {a : Flt K} (h : ¬Finite a) : Spoilt (Flt.mul a a) := by
  cases a <;> simp_all [Finite, Spoilt, Flt.mul]

theorem mask_infinite {a : Flt K} (b : Bool) (h : ¬Finite a) : ¬Finite (Flt.mul a (maskValue b)) := by
  cases a with
  | fin x => exact absurd ⟨x, rfl⟩ h
  | nan => simp [Flt.mul, Finite]
  | pinf => simp only [maskValue, Flt.mul, Finite]; split_ifs <;> simp
  | ninf => simp only [maskValue, Flt.mul, Finite]; split_ifs <;> simp

omit [LinearOrder K] in
theorem sum_infinite (j : Fin d) (rows : List (Obs K d)) (a : Obs K d) (h : ¬Finite (a j) ∨ ∃ x ∈ rows, ¬Finite (x j)) : ¬Finite (rows.foldl addObs a j) := by
  induction rows generalizing a with
  | nil => simpa using h
  | cons r rs ih =>
    refine ih _ ?_
    rcases h with h | ⟨x, hx, h⟩
    · exact .inl (add_infinite (.inl h))
    · rcases List.mem_cons.mp hx with rfl | hx
      · exact .inl (add_infinite (.inr h))
      · exact .inr ⟨x, hx, h⟩

omit [LinearOrder K] in
theorem sum_ninf (j : Fin d) (rows : List (Obs K d)) (a : Obs K d) (ha : a j ≠ .ninf) (h : ∀ x ∈ rows, x j ≠ .ninf) : rows.foldl addObs a j ≠ .ninf := by
  induction rows generalizing a with
  | nil => exact ha
  | cons r rs ih => exact ih _ (add_ninf ha (h r (by simp))) fun x hx => h x (by simp [hx])

omit [LinearOrder K] in
theorem sum_spoilt (j : Fin d) (rows : List (Obs K d)) (a : Obs K d) (ha : a j ≠ .ninf) (hr : ∀ x ∈ rows, x j ≠ .ninf) (h : Spoilt (a j) ∨ ∃ x ∈ rows, Spoilt (x j)) : Spoilt (rows.foldl addObs a j) := by
  induction rows generalizing a with
  | nil => simpa using h
  | cons r rs ih =>
    refine ih _ (add_ninf ha (hr r (by simp))) (fun x hx => hr x (by simp [hx])) ?_
    rcases h with h | ⟨x, hx, h⟩
    · exact .inl (add_spoilt ha (hr r (by simp)) (.inl h))
    · rcases List.mem_cons.mp hx with rfl | hx
      · exact .inl (add_spoilt ha (hr x (by simp)) (.inr h))
      · exact .inr ⟨x, hx, h⟩

theorem squares_ninf (j : Fin d) (rows : List (Obs K d)) : sumRows (rows.map sqObs) j ≠ .ninf :=
  sum_ninf j _ _ (by simp) fun x hx => by
    obtain ⟨r, -, rfl⟩ := List.mem_map.mp hx
    exact sq_ninf _

/-- The sums of a batch with such an observation. -/
theorem batch_spoilt (j : Fin d) (rows : List (Obs K d)) (h : ∃ x ∈ rows, ¬Finite (x j)) : ¬Finite (sumRows rows j) ∧ Spoilt (sumRows (rows.map sqObs) j) := by
  refine ⟨sum_infinite j rows _ (.inr h), sum_spoilt j _ _ (by simp) (fun x hx => ?_) (.inr ?_)⟩
  · obtain ⟨r, -, rfl⟩ := List.mem_map.mp hx
    exact sq_ninf _
  · obtain ⟨x, hx, hf⟩ := h
    exact ⟨_, List.mem_map.mpr ⟨x, hx, rfl⟩, sq_spoilt hf⟩

theorem masked_infinite (j : Fin d) (rows : List (Obs K d)) (mask : List Bool) (hl : mask.length = rows.length) (h : ∃ x ∈ rows, ¬Finite (x j)) : ∃ x ∈ List.zipWith maskRow rows mask, ¬Finite (x j) := by
  obtain ⟨x, hx, hf⟩ := h
  obtain ⟨i, hi, rfl⟩ := List.getElem_of_mem hx
  refine ⟨maskRow rows[i] mask[i], ?_, mask_infinite _ hf⟩
  exact List.mem_iff_getElem.mpr ⟨i, by simp [hl, hi], by simp⟩

/-- What is always so. -/
def Sound (j : Fin d) (s : RN K d) : Prop := ∀ q, s.sumSq = some q → q j ≠ .ninf

/-- What is so of a state that holds such an observation. -/
def Holds (j : Fin d) (s : RN K d) : Prop := ∃ v q, s.sum = some v ∧ s.sumSq = some q ∧ ¬Finite (v j) ∧ Spoilt (q j)

omit [LinearOrder K] in
theorem absorb_taint {j : Fin d} {s s' : RN K d} {sx sxx : Obs K d} {n : ℕ} (h : s.absorb sx sxx n = .ok s') (hs : Sound j s) (hq : sxx j ≠ .ninf) :
    Sound j s' ∧ s'.count = s.count + n ∧ (Holds j s ∨ (¬Finite (sx j) ∧ Spoilt (sxx j)) → Holds j s') := by
  unfold RN.absorb at h
  split_ifs at h with h1 h2
  · injection h with h
    subst h
    simp only [RN.hasNoData, Bool.and_eq_true, Option.isNone_iff_eq_none, beq_iff_eq] at h1
    refine ⟨fun q hq' => ?_, by simp [h1.2], fun ht => ?_⟩
    · simp only [Option.some.injEq] at hq'
      rw [← hq']; exact hq
    · rcases ht with ⟨v, q, hv, -⟩ | ⟨a, b⟩
      · rw [h1.1.1] at hv; cases hv
      · exact ⟨sx, sxx, rfl, rfl, a, b⟩
  · injection h with h
    subst h
    simp only [RN.hasData, Bool.and_eq_true, Option.isSome_iff_exists] at h2
    obtain ⟨⟨⟨v, hv⟩, q, hq'⟩, -⟩ := h2
    have hqn := hs q hq'
    refine ⟨fun q2 h2 => ?_, rfl, fun ht => ⟨addObs v sx, addObs q sxx, by simp [hv], by simp [hq'], ?_⟩⟩
    · simp only [hq', Option.map_some, Option.some.injEq] at h2
      rw [← h2]; exact add_ninf hqn hq
    · rcases ht with ⟨v2, q2, e1, e2, a, b⟩ | ⟨a, b⟩
      · rw [hv] at e1; rw [hq'] at e2
        injection e1 with e1; injection e2 with e2
        subst e1 e2
        exact ⟨add_infinite (.inl a), add_spoilt hqn hq (.inl b)⟩
      · exact ⟨add_infinite (.inr a), add_spoilt hqn hq (.inr b)⟩

theorem bindOk {α β : Type} {x : Except PyErr α} {f : α → Except PyErr β} {y : β} (h : x.bind f = .ok y) : ∃ a, x = .ok a ∧ f a = .ok y := by
  cases x with
  | error e => simp [Except.bind] at h
  | ok a => exact ⟨a, rfl, h⟩

theorem run_taint (j : Fin d) (h : Spec.History (Flt K) d) : ∀ s, runFlt h = .ok s → Sound j s ∧ s.count = shown h ∧ (Tainted j h → Holds j s) := by
  induction h with
  | empty =>
    intro s hs
    simp only [runFlt, Except.ok.injEq] at hs
    subst hs
    exact ⟨fun q hq => by simp [RN.empty] at hq, rfl, fun h => h.elim⟩
  | single h x ih =>
    intro s hs
    obtain ⟨s0, h0, hs⟩ := bindOk hs
    obtain ⟨i1, i2, i3⟩ := ih s0 h0
    simp only [RN.update, Option.isSome_none, Bool.false_eq_true, if_false] at hs
    obtain ⟨k1, k2, k3⟩ := absorb_taint hs i1 (sq_ninf (x j))
    exact ⟨k1, by rw [k2, i2]; rfl, fun ht => k3 (ht.imp i3 fun hx => ⟨hx, sq_spoilt hx⟩)⟩
  | batch h rows ih =>
    intro s hs
    obtain ⟨s0, h0, hs⟩ := bindOk hs
    obtain ⟨i1, i2, i3⟩ := ih s0 h0
    simp only [RN.update] at hs
    obtain ⟨k1, k2, k3⟩ := absorb_taint hs i1 (squares_ninf j rows)
    exact ⟨k1, by rw [k2, i2]; rfl, fun ht => k3 (ht.imp i3 fun hx => batch_spoilt j rows hx)⟩
  | masked h rows mask ih =>
    intro s hs
    obtain ⟨s0, h0, hs⟩ := bindOk hs
    obtain ⟨i1, i2, i3⟩ := ih s0 h0
    simp only [RN.update] at hs
    split_ifs at hs with hl
    have hl : mask.length = rows.length := by simpa using hl
    obtain ⟨k1, k2, k3⟩ := absorb_taint hs i1 (squares_ninf j _)
    exact ⟨k1, by rw [k2, i2]; rfl, fun ht => k3 (ht.imp i3 fun hx => batch_spoilt j _ (masked_infinite j rows mask hl hx))⟩
  | merge h o ih iho =>
    intro s hs
    obtain ⟨s0, h0, hs⟩ := bindOk hs
    obtain ⟨o0, ho, hs⟩ := bindOk hs
    obtain ⟨i1, i2, i3⟩ := ih s0 h0
    obtain ⟨j1, j2, j3⟩ := iho o0 ho
    unfold RN.merge at hs
    simp only [Option.isSome_none, Bool.false_eq_true, if_false, Bool.not_true] at hs
    split_ifs at hs with hc
    · injection hs with hs
      subst hs
      refine ⟨i1, by rw [i2, shown, ← j2, hc]; rfl, fun ht => ?_⟩
      rcases ht with ht | ⟨-, ht⟩
      · exact i3 ht
      · omega
    · cases hv : o0.sum with
      | none => simp [hv] at hs
      | some v =>
        cases hq : o0.sumSq with
        | none => simp [hv, hq] at hs
        | some q =>
          simp only [hv, hq] at hs
          obtain ⟨k1, k2, k3⟩ := absorb_taint hs i1 (j1 q hq)
          refine ⟨k1, by rw [k2, i2, j2]; rfl, fun ht => k3 (ht.imp i3 fun hx => ?_)⟩
          obtain ⟨v', q', e1, e2, a, b⟩ := j3 hx.1
          rw [hv] at e1; rw [hq] at e2
          injection e1 with e1; injection e2 with e2
          subst e1 e2
          exact ⟨a, b⟩
  | reset h ih =>
    intro s hs
    simp only [runFlt] at hs
    cases hr : runFlt h with
    | error e => simp [hr, Except.map] at hs
    | ok s0 =>
      simp only [hr, Except.map, Except.ok.injEq] at hs
      subst hs
      exact ⟨fun q hq => by simp [RN.empty] at hq, rfl, fun h => h.elim⟩

theorem div_infinite {a : Flt K} {n : ℕ} (h : ¬Finite a) : ¬Finite (divCount a n) := by
  cases a <;> simp_all [Finite, divCount]

theorem spoilt_variance {v q : Flt K} (n : ℕ) (hv : ¬Finite v) (hq : Spoilt q) (m : K) : Flt.max2 (Flt.sub (divCount q n) (Flt.mul (divCount v n) (divCount v n))) (.fin m) = .nan := by
  cases v <;> rcases hq with rfl | rfl <;> simp_all [Finite, divCount, Flt.mul, Flt.sub, Flt.max2]

/-- **C182, the coordinate.** Once a coordinate has been given a NaN or an infinity, until the next reset and whatever comes after it: the mean is not finite, the variance is NaN, and so is the normalised value of every observation. -/
theorem C182_spoilt (j : Fin d) (h : Spec.History (Flt K) d) (ht : Tainted j h) {s : RN K d} (hs : runFlt h = .ok s) (sqrt : K → K) (minVar : K) :
    (∃ m, s.mean = .ok m ∧ ¬Finite (m j)) ∧ (∃ v, s.variance minVar = .ok v ∧ v j = .nan) ∧
      (0 < shown h → ∀ lb ub x, ∃ y, s.normalizeStats sqrt minVar lb ub x = .ok y ∧ y j = .nan) := by
  obtain ⟨-, hcount, hh⟩ := run_taint j h s hs
  obtain ⟨v, q, hv, hq, a, b⟩ := hh ht
  have hvar := spoilt_variance s.count a b minVar
  refine ⟨⟨_, by simp only [RN.mean, hv, Option.elim]; rfl, div_infinite a⟩, ⟨_, by simp only [RN.variance, hv, hq, Option.elim]; rfl, hvar⟩, fun hpos lb ub x => ?_⟩
  have hc : s.count ≠ 0 := by omega
  refine ⟨_, by simp only [RN.normalizeStats, hc, if_false, RN.mean, RN.variance, hv, hq, Option.elim, Except.bind, Except.map]; rfl, ?_⟩
  rw [hvar]
  have e : ∀ a : Flt K, divFlt a (sqrtFlt sqrt .nan) = .nan := fun a => by cases a <;> rfl
  rw [e]
  cases lb <;> cases ub <;> simp [clampObs, Flt.max2, Flt.min2]

/-! ### The other coordinates -/

/-- Two states that differ at most in coordinates other than `j`. -/
def AlikeAt (j : Fin d) (s s' : RN K d) : Prop := s.count = s'.count ∧ (s.sum.map fun v => v j) = (s'.sum.map fun v => v j) ∧ (s.sumSq.map fun v => v j) = s'.sumSq.map fun v => v j

/-- Two outcomes that do. -/
def OutcomeAt (j : Fin d) : Except PyErr (RN K d) → Except PyErr (RN K d) → Prop
  | .ok s, .ok s' => AlikeAt j s s'
  | .error e, .error e' => e = e'
  | _, _ => False

theorem option_at {α β : Type} {f : α → β} {a b : Option α} (h : a.map f = b.map f) : (a = none ∧ b = none) ∨ ∃ x y, a = some x ∧ b = some y ∧ f x = f y := by
  cases a <;> cases b <;> simp_all

omit [LinearOrder K] in
theorem absorb_at {j : Fin d} {s s' : RN K d} {sx sx' sxx sxx' : Obs K d} (n : ℕ) (h : AlikeAt j s s') (h1 : sx j = sx' j) (h2 : sxx j = sxx' j) : OutcomeAt j (s.absorb sx sxx n) (s'.absorb sx' sxx' n) := by
  obtain ⟨a, b, c⟩ := s
  obtain ⟨a', b', c'⟩ := s'
  obtain ⟨hc, ha, hb⟩ := h
  dsimp only at hc ha hb
  subst hc
  rcases option_at ha with ⟨rfl, rfl⟩ | ⟨x, y, rfl, rfl, hxy⟩ <;> rcases option_at hb with ⟨rfl, rfl⟩ | ⟨u, w, rfl, rfl, huw⟩
  · by_cases hc : c = 0 <;> simp [RN.absorb, RN.hasNoData, RN.hasData, OutcomeAt, AlikeAt, hc, h1, h2]
  · simp [RN.absorb, RN.hasNoData, RN.hasData, OutcomeAt]
  · simp [RN.absorb, RN.hasNoData, RN.hasData, OutcomeAt]
  · by_cases hc : 0 < c <;> simp [RN.absorb, RN.hasNoData, RN.hasData, OutcomeAt, AlikeAt, hc, addObs, h1, h2, hxy, huw]

omit [LinearOrder K] in
theorem fold_at {j : Fin d} {rows rows' : List (Obs K d)} (h : List.Forall₂ (fun x x' => x j = x' j) rows rows') : ∀ a a' : Obs K d, a j = a' j → rows.foldl addObs a j = rows'.foldl addObs a' j := by
  induction h with
  | nil => exact fun a a' h => h
  | cons hx _ ih => exact fun a a' ha => ih _ _ (by simp [addObs, ha, hx])

theorem squares_at {j : Fin d} {rows rows' : List (Obs K d)} (h : List.Forall₂ (fun x x' => x j = x' j) rows rows') : List.Forall₂ (fun x x' : Obs K d => x j = x' j) (rows.map sqObs) (rows'.map sqObs) := by
  induction h with
  | nil => exact .nil
  | cons hx _ ih => exact .cons (by simp [sqObs, hx]) ih

theorem masked_at {j : Fin d} {rows rows' : List (Obs K d)} (h : List.Forall₂ (fun x x' => x j = x' j) rows rows') (mask : List Bool) : List.Forall₂ (fun x x' : Obs K d => x j = x' j) (List.zipWith maskRow rows mask) (List.zipWith maskRow rows' mask) := by
  induction h generalizing mask with
  | nil => exact .nil
  | cons hx _ ih =>
    cases mask with
    | nil => exact .nil
    | cons b mask => exact .cons (by simp [maskRow, hx]) (ih mask)

omit [Field K] [LinearOrder K] in
theorem bind_at {j : Fin d} {r r' : Except PyErr (RN K d)} {f f' : RN K d → Except PyErr (RN K d)} (h : OutcomeAt j r r') (hf : ∀ s s', AlikeAt j s s' → OutcomeAt j (f s) (f' s')) : OutcomeAt j (r.bind f) (r'.bind f') := by
  cases r <;> cases r' <;> simp only [OutcomeAt] at h
  · subst h; simp [Except.bind, OutcomeAt]
  · exact hf _ _ h

theorem run_at {j : Fin d} {h h' : Spec.History (Flt K) d} (hh : SameAt j h h') : OutcomeAt j (runFlt h) (runFlt h') := by
  induction hh with
  | empty => exact ⟨rfl, rfl, rfl⟩
  | single _ hx ih => exact bind_at ih fun s s' hs => by simpa [RN.update] using absorb_at 1 hs hx (by simp [sqObs, hx])
  | batch _ hr ih =>
    exact bind_at ih fun s s' hs => by
      simp only [RN.update, hr.length_eq]
      exact absorb_at _ hs (fold_at hr _ _ rfl) (fold_at (squares_at hr) _ _ rfl)
  | @masked h h' rows rows' mask _ hr ih =>
    exact bind_at ih fun s s' hs => by
      simp only [RN.update, hr.length_eq]
      split
      · simp [OutcomeAt]
      · exact absorb_at _ hs (fold_at (masked_at hr mask) _ _ rfl) (fold_at (squares_at (masked_at hr mask)) _ _ rfl)
  | merge _ _ ih iho =>
    refine bind_at ih fun s s' hs => bind_at iho fun o o' ho => ?_
    obtain ⟨a, b, c⟩ := o
    obtain ⟨a', b', c'⟩ := o'
    obtain ⟨hc, ha, hb⟩ := ho
    dsimp only at hc ha hb
    subst hc
    unfold RN.merge
    dsimp only
    by_cases h0 : c = 0
    · simpa [h0, OutcomeAt] using hs
    · simp only [h0, if_false, Option.isSome_none, Bool.false_eq_true, Bool.not_true]
      rcases option_at ha with ⟨rfl, rfl⟩ | ⟨x, y, rfl, rfl, hxy⟩
      · simp [OutcomeAt]
      · rcases option_at hb with ⟨rfl, rfl⟩ | ⟨u, w, rfl, rfl, huw⟩
        · simp [OutcomeAt]
        · exact absorb_at c hs hxy huw
  | @reset h h' _ ih =>
    simp only [runFlt]
    cases hr : runFlt h <;> cases hr' : runFlt h' <;> rw [hr, hr'] at ih <;> simp only [OutcomeAt] at ih
    · subst ih; simp [Except.map, OutcomeAt]
    · exact ⟨rfl, rfl, rfl⟩

/-- **C182, the others.** If coordinate `j` has only been given numbers, its mean and its variance are those of these numbers, and the normalised values those of a normaliser which has never seen anything else, whatever NaNs and infinities the other coordinates have been given. -/
theorem C182_others [IsStrictOrderedRing K] (j : Fin d) (h : Spec.History (Flt K) d) (clean : Spec.History K d) (w : clean.WellFormed) (hne : clean.seen ≠ []) (hsame : SameAt j h (embHistory clean)) (sqrt : K → K) (minVar : K) :
    ∃ s t, runFlt h = .ok s ∧ run clean = .ok t ∧ (∃ m, s.mean = .ok m ∧ m j = .fin (Spec.mean clean.seen j)) ∧ (∃ v, s.variance minVar = .ok v ∧ v j = .fin (max (Spec.variance clean.seen j) minVar)) ∧
      ∀ lb ub x x', x j = x' j → ∃ y y', s.normalizeStats sqrt minVar lb ub x = .ok y ∧ t.normalizeStats sqrt minVar lb ub x' = .ok y' ∧ y j = y' j := by
  obtain ⟨t, ht, hcount, hstat⟩ := C57_running_stats_are_batch_stats clean w minVar
  obtain ⟨hm, hv⟩ := hstat hne
  have hat := run_at hsame
  rw [runFlt_emb, ht] at hat
  cases hr : runFlt h with
  | error e => simp [hr, OutcomeAt] at hat
  | ok s =>
    rw [hr] at hat
    obtain ⟨hc, ha, hb⟩ := hat
    have htc : t.count ≠ 0 := by rw [hcount]; simpa using hne
    obtain ⟨a, b, c⟩ := s
    obtain ⟨a', b', c'⟩ := t
    dsimp only at hc ha hb htc
    subst hc
    rcases option_at ha with ⟨rfl, rfl⟩ | ⟨x, y, rfl, rfl, hxy⟩
    · simp [RN.mean] at hm
    · rcases option_at hb with ⟨rfl, rfl⟩ | ⟨u, w', rfl, rfl, huw⟩
      · simp [RN.variance] at hv
      · simp only [RN.mean, Option.elim, Except.ok.injEq] at hm
        simp only [RN.variance, Option.elim, Except.ok.injEq] at hv
        refine ⟨_, _, rfl, ht, ⟨_, rfl, ?_⟩, ⟨_, rfl, ?_⟩, fun lb ub z z' hz => ⟨_, _, by simp only [RN.normalizeStats, htc, if_false, RN.mean, RN.variance, Option.elim, Except.bind, Except.map]; rfl, by simp only [RN.normalizeStats, htc, if_false, RN.mean, RN.variance, Option.elim, Except.bind, Except.map]; rfl, ?_⟩⟩
        · dsimp only
          rw [hxy]
          exact congrFun hm j
        · dsimp only
          rw [hxy, huw]
          exact congrFun hv j
        · rw [hxy, huw, hz]

/-- On numbers, this normalisation is the one of C57. -/
theorem normalizeStats_eq {s : RN K d} {m : Obs K d} {v : Fin d → K} {minVar : K} (hm : s.mean = .ok m) (hv : s.variance minVar = .ok (emb v)) (sqrt : K → K) (lb ub : Option K) (x : Obs K d) :
    s.normalizeStats sqrt minVar lb ub x = s.normalize (fun j => sqrt (v j)) lb ub x := by
  unfold RN.normalizeStats RN.normalize
  split
  · rfl
  · simp only [hm, hv, Except.bind, Except.map]
    congr 1
    funext j
    congr 1
    simp only [emb, sqrtFlt]
    cases Flt.sub (x j) (m j) <;> rfl

/-! ### A concrete history -/

/-- One infinite value in the first of two coordinates, left out by a mask, in a normaliser that was merged into this one. -/
def exHistory : Spec.History (Flt ℚ) 2 :=
  .single (.merge (.single .empty ![.fin 1, .fin 2]) (.masked .empty [![.fin 3, .fin 4], ![.pinf, .fin 9]] [true, false])) ![.fin 5, .fin 6]

def exClean : Spec.History ℚ 2 :=
  .single (.merge (.single .empty ![1, 2]) (.masked .empty [![3, 4], ![7, 9]] [true, false])) ![5, 6]

example : Tainted 0 exHistory ∧ 0 < shown exHistory ∧ (∃ s, runFlt exHistory = .ok s) := by
  refine ⟨?_, by decide, ?_⟩
  · simp only [exHistory, Tainted, shown]
    exact .inl (.inr ⟨.inr ⟨![.pinf, .fin 9], by simp, by simp [Finite]⟩, by decide⟩)
  · obtain ⟨s, -, hs, -⟩ := C182_others (1 : Fin 2) exHistory exClean (by simp [exClean, Spec.History.WellFormed, Spec.select, Spec.History.seen]) (by simp [exClean, Spec.History.seen])
      (.single (.merge (.single .empty (by simp [emb])) (.masked .empty (.cons (by simp [emb]) (.cons (by simp [emb]) .nil)))) (by simp [emb])) id 0
    exact ⟨s, hs⟩

/-- The second coordinate has the mean of 2, 4 and 6. -/
example : ∃ s m, runFlt exHistory = .ok s ∧ s.mean = .ok m ∧ m 1 = .fin 4 := by
  obtain ⟨s, -, hs, -, ⟨m, hm, he⟩, -⟩ := C182_others (1 : Fin 2) exHistory exClean (by simp [exClean, Spec.History.WellFormed, Spec.select, Spec.History.seen]) (by simp [exClean, Spec.History.seen])
    (.single (.merge (.single .empty (by simp [emb])) (.masked .empty (.cons (by simp [emb]) (.cons (by simp [emb]) .nil)))) (by simp [emb])) id 0
  refine ⟨s, m, hs, hm, he.trans ?_⟩
  simp [exClean, Spec.History.seen, Spec.mean, Spec.select]
  norm_num

end EvoTorch.RunningNorm
