import Verif.Model.DistributionObjects
import Mathlib.Data.List.Basic
import Mathlib.Data.List.Nodup
import Mathlib.Data.List.Perm.Subperm
import Mathlib.Algebra.Order.Ring.Rat
import Mathlib.Algebra.Order.Field.Rat
/-!
C109: distribution objects keep the parameters they are given, in one dtype and on one device.
-/
namespace EvoTorch.DistributionObjects
open EvoTorch

variable {DT DV A : Type} [DecidableEq DT] [DecidableEq DV]

/-! ### Specification -/

/-- What a separable Gaussian can be made of: `mu` and `sigma` are vectors of one length, which is the `solution_length` if that is given; every mandatory name is there and every name is known;
all tensors have one dtype and one device. -/
structure Acceptable (c : Cls) (length : Option ℕ) (ps : Params DT DV A) : Prop where
  shapes : ∃ mu sigma : Tensor DT DV A, ∃ n, ps.lookup "mu" = some (.tensor mu) ∧ ps.lookup "sigma" = some (.tensor sigma) ∧ mu.shape = [n] ∧ sigma.shape = [n] ∧
    ∀ l, length = some l → l = n
  known : ∀ k ∈ ps.map (·.1), k ∈ c.mandatory ∨ k ∈ c.optional
  present : ∀ k ∈ c.mandatory, k ∈ ps.map (·.1)
  dtypes : ∀ k t k' t', (k, Param.tensor t) ∈ ps → (k', Param.tensor t') ∈ ps → t.dtype = t'.dtype
  devices : ∀ k t k' t', (k, Param.tensor t) ∈ ps → (k', Param.tensor t') ∈ ps → t.device = t'.device

/-- Every tensor among the parameters has the dtype and the device which the distribution reports. -/
def Uniform (d : Dist DT DV A) : Prop := ∀ k t, (k, Param.tensor t) ∈ d.params → some t.dtype = d.dtype ∧ some t.device = d.device

/-! ### Dictionaries -/

theorem lookup_setKey {V : Type} (k : String) (v : V) (l : List (String × V)) (k' : String) :
    (setKey k v l).lookup k' = if k' = k then some v else l.lookup k' := by
  induction l with
  | nil =>
    by_cases h : k' = k
    · simp [setKey, h]
    · simp [setKey, h, List.lookup, beq_false_of_ne h]
  | cons a l ih =>
    obtain ⟨ka, va⟩ := a
    by_cases h : ka = k
    · subst h
      simp only [setKey, if_true, List.lookup]
      by_cases h' : k' = ka
      · simp [h']
      · simp [h', beq_false_of_ne h']
    · simp only [setKey, if_neg h, List.lookup]
      by_cases h' : k' = ka
      · subst h'
        simp [h]
      · simp only [beq_false_of_ne h']
        exact ih

theorem mem_keys_setKey {V : Type} (k : String) (v : V) (l : List (String × V)) (x : String) :
    x ∈ (setKey k v l).map (·.1) ↔ x = k ∨ x ∈ l.map (·.1) := by
  induction l with
  | nil => simp [setKey]
  | cons a l ih =>
    obtain ⟨ka, va⟩ := a
    by_cases h : ka = k
    · subst h
      simp [setKey]
    · simp only [setKey, if_neg h, List.map_cons, List.mem_cons, ih]
      tauto

theorem nodup_setKey {V : Type} (k : String) (v : V) (l : List (String × V)) (h : (l.map (·.1)).Nodup) : ((setKey k v l).map (·.1)).Nodup := by
  induction l with
  | nil => simp [setKey]
  | cons a l ih =>
    obtain ⟨ka, va⟩ := a
    simp only [List.map_cons, List.nodup_cons] at h
    by_cases hk : ka = k
    · subst hk
      simpa [setKey] using h
    · simp only [setKey, if_neg hk, List.map_cons, List.nodup_cons]
      refine ⟨?_, ih h.2⟩
      intro hm
      rcases (mem_keys_setKey k v l ka).1 hm with e | e
      · exact hk e
      · exact h.1 e

theorem mem_setKey {V : Type} (k : String) (v : V) (l : List (String × V)) (x : String × V) (h : x ∈ setKey k v l) : x = (k, v) ∨ x ∈ l := by
  induction l with
  | nil => simpa [setKey] using h
  | cons a l ih =>
    obtain ⟨ka, va⟩ := a
    by_cases hk : ka = k
    · subst hk
      simp only [setKey, if_true, List.mem_cons] at h
      rcases h with h | h
      · exact Or.inl h
      · exact Or.inr (List.mem_cons_of_mem _ h)
    · simp only [setKey, if_neg hk, List.mem_cons] at h
      rcases h with h | h
      · exact Or.inr (by simp [h])
      · rcases ih h with e | e
        · exact Or.inl e
        · exact Or.inr (List.mem_cons_of_mem _ e)

theorem nodup_updateDict {V : Type} (news d : List (String × V)) (h : (d.map (·.1)).Nodup) : ((updateDict d news).map (·.1)).Nodup := by
  induction news generalizing d with
  | nil => exact h
  | cons a news ih => exact ih _ (nodup_setKey a.1 a.2 d h)

theorem lookup_updateDict {V : Type} (news d : List (String × V)) (h : (news.map (·.1)).Nodup) (k : String) :
    (updateDict d news).lookup k = (news.lookup k).or (d.lookup k) := by
  induction news generalizing d with
  | nil => simp [updateDict]
  | cons a news ih =>
    obtain ⟨ka, va⟩ := a
    simp only [List.map_cons, List.nodup_cons] at h
    have : updateDict d ((ka, va) :: news) = updateDict (setKey ka va d) news := rfl
    rw [this, ih _ h.2, lookup_setKey]
    by_cases hk : k = ka
    · subst hk
      have hn : news.lookup k = none := by
        rw [List.lookup_eq_none_iff]
        intro p hp
        by_contra e
        exact h.1 (List.mem_map.2 ⟨p, hp, (by simpa using e : k = p.1).symm⟩)
      simp [hn, List.lookup]
    · simp [hk, List.lookup, beq_false_of_ne hk]

theorem mem_of_lookup {V : Type} {l : List (String × V)} {k : String} {v : V} (h : l.lookup k = some v) : (k, v) ∈ l := by
  induction l with
  | nil => simp at h
  | cons a l ih =>
    obtain ⟨ka, va⟩ := a
    by_cases hk : k = ka
    · subst hk
      simp [List.lookup] at h
      simp [h]
    · simp only [List.lookup, beq_false_of_ne hk] at h
      exact List.mem_cons_of_mem _ (ih h)

theorem lookup_map {V W : Type} (f : V → W) (l : List (String × V)) (k : String) : (l.map fun kv => (kv.1, f kv.2)).lookup k = (l.lookup k).map f := by
  induction l with
  | nil => rfl
  | cons a l ih =>
    by_cases hk : k = a.1
    · simp [List.lookup, hk]
    · simp [List.lookup, beq_false_of_ne hk, ih]

/-! ### The checks -/

theorem countNames_spec (c : Cls) (keys : List String) (n m : ℕ) :
    countNames c keys n = .ok m ↔ (∀ k ∈ keys, k ∈ c.mandatory ∨ k ∈ c.optional) ∧ m = n + (keys.filter (· ∈ c.mandatory)).length := by
  induction keys generalizing n with
  | nil => simp [countNames, eq_comm]
  | cons k keys ih =>
    unfold countNames
    by_cases h1 : k ∈ c.mandatory
    · simp only [if_pos h1, ih, List.mem_cons, forall_eq_or_imp, h1, true_or, true_and, List.filter_cons, decide_true, if_true, List.length_cons]
      constructor <;> rintro ⟨a, b⟩ <;> exact ⟨a, by omega⟩
    · by_cases h2 : k ∈ c.optional
      · simp only [if_neg h1, ih, List.mem_cons, forall_eq_or_imp, h2, or_true, true_and, List.filter_cons, h1, decide_false, Bool.false_eq_true, if_false, if_true]
      · simp [h1, h2]

theorem countNames_error (c : Cls) (keys : List String) (n : ℕ) (e : PyErr) (h : countNames c keys n = .error e) : e = .valueError := by
  induction keys generalizing n with
  | nil => simp [countNames] at h
  | cons k keys ih =>
    unfold countNames at h
    split at h
    · exact ih _ h
    · split at h
      · exact ih _ h
      · cases h
        rfl

theorem mandatory_count (c : Cls) (hc : c.mandatory.Nodup) (keys : List String) (hk : keys.Nodup) :
    ¬ (keys.filter (· ∈ c.mandatory)).length < c.mandatory.length ↔ ∀ k ∈ c.mandatory, k ∈ keys := by
  constructor
  · intro h k hm
    have hsub : (keys.filter (· ∈ c.mandatory)).Subperm c.mandatory := List.subperm_of_subset (hk.filter _) (by
      intro x hx
      simpa using (List.mem_filter.1 hx).2)
    have := hsub.perm_of_length_le (by omega)
    exact (List.mem_filter.1 (this.mem_iff.2 hm)).1
  · intro h
    have hsub : c.mandatory.Subperm (keys.filter (· ∈ c.mandatory)) := List.subperm_of_subset hc (by
      intro x hx
      simp [List.mem_filter, hx, h x hx])
    have := hsub.length_le
    omega

theorem checkNames_spec (c : Cls) (hc : c.mandatory.Nodup) (keys : List String) (hk : keys.Nodup) :
    checkNames c keys = .ok () ↔ (∀ k ∈ keys, k ∈ c.mandatory ∨ k ∈ c.optional) ∧ ∀ k ∈ c.mandatory, k ∈ keys := by
  rw [← mandatory_count c hc keys hk]
  unfold checkNames
  cases h : countNames c keys 0 with
  | error e =>
    simp only [Except.bind, reduceCtorEq, false_iff, not_and]
    intro hall
    have := (countNames_spec c keys 0 _).2 ⟨hall, rfl⟩
    rw [h] at this
    cases this
  | ok m =>
    obtain ⟨hall, hm⟩ := (countNames_spec c keys 0 m).1 h
    simp only [Except.bind]
    rw [Nat.zero_add] at hm
    subst hm
    split
    · rename_i hlt
      simp [hlt]
    · rename_i hlt
      simp only [true_iff]
      exact ⟨hall, hlt⟩

theorem labelFrom_some {D : Type} [DecidableEq D] (label : Tensor DT DV A → D) (ps : Params DT DV A) (c : D) (r : Option D) :
    labelFrom label ps (some c) = .ok r ↔ (∀ k t, (k, Param.tensor t) ∈ ps → label t = c) ∧ r = some c := by
  induction ps with
  | nil => simp [labelFrom, eq_comm]
  | cons a ps ih =>
    obtain ⟨k, p⟩ := a
    cases p with
    | basic s => simp [labelFrom, ih]
    | tensor t =>
      unfold labelFrom
      simp only [ContainerDtype.update]
      by_cases h : label t = c
      · simp only [ne_eq, h, not_true_eq_false, if_false, Except.bind, ih, List.mem_cons, Prod.mk.injEq, Param.tensor.injEq]
        constructor
        · rintro ⟨h1, h2⟩
          refine ⟨?_, h2⟩
          rintro k' t' (⟨_, rfl⟩ | h')
          · exact h
          · exact h1 _ _ h'
        · rintro ⟨h1, h2⟩
          exact ⟨fun k' t' h' => h1 k' t' (Or.inr h'), h2⟩
      · simp only [ne_eq, h, not_false_eq_true, if_true, Except.bind, reduceCtorEq, false_iff, not_and]
        intro h1
        exact absurd (h1 k t (by simp)) h

theorem labelFrom_none {D : Type} [DecidableEq D] (label : Tensor DT DV A → D) (ps : Params DT DV A) :
    (∃ r, labelFrom label ps none = .ok r) ↔ ∀ k t k' t', (k, Param.tensor t) ∈ ps → (k', Param.tensor t') ∈ ps → label t = label t' := by
  induction ps with
  | nil => simp [labelFrom]
  | cons a ps ih =>
    obtain ⟨k, p⟩ := a
    cases p with
    | basic s => simp [labelFrom, ih]
    | tensor t =>
      unfold labelFrom
      simp only [ContainerDtype.update, Except.bind, labelFrom_some, List.mem_cons, Prod.mk.injEq, Param.tensor.injEq]
      constructor
      · rintro ⟨_, h, _⟩
        rintro k1 t1 k2 t2 (⟨_, rfl⟩ | h1) (⟨_, rfl⟩ | h2)
        · rfl
        · exact (h _ _ h2).symm
        · exact h _ _ h1
        · exact (h _ _ h1).trans (h _ _ h2).symm
      · intro h
        exact ⟨_, fun k' t' h' => h k' t' k t (Or.inr h') (Or.inl ⟨rfl, rfl⟩), rfl⟩

theorem labelFrom_result {D : Type} [DecidableEq D] (label : Tensor DT DV A → D) (ps : Params DT DV A) (r : Option D) (h : labelFrom label ps none = .ok r) :
    ∀ k t, (k, Param.tensor t) ∈ ps → r = some (label t) := by
  induction ps with
  | nil => simp
  | cons a ps ih =>
    obtain ⟨k, p⟩ := a
    cases p with
    | basic s =>
      intro k' t' h'
      simp only [List.mem_cons, Prod.mk.injEq, reduceCtorEq, and_false, false_or] at h'
      exact ih h k' t' h'
    | tensor t =>
      unfold labelFrom at h
      simp only [ContainerDtype.update, Except.bind, labelFrom_some] at h
      intro k' t' h'
      simp only [List.mem_cons, Prod.mk.injEq, Param.tensor.injEq] at h'
      rcases h' with ⟨_, rfl⟩ | h'
      · exact h.2
      · rw [h.1 _ _ h']
        exact h.2

theorem labelFrom_error {D : Type} [DecidableEq D] (label : Tensor DT DV A → D) (ps : Params DT DV A) (cur : Option D) (e : PyErr)
    (h : labelFrom label ps cur = .error e) : e = .valueError := by
  induction ps generalizing cur with
  | nil => simp [labelFrom] at h
  | cons a ps ih =>
    obtain ⟨k, p⟩ := a
    cases p with
    | basic s => exact ih _ h
    | tensor t =>
      unfold labelFrom at h
      cases cur with
      | none => exact ih _ h
      | some c =>
        simp only [ContainerDtype.update] at h
        split at h
        · simp [Except.bind] at h
          exact h.symm
        · exact ih _ h

/-! ### The constructor -/

theorem baseInit_ok (conv : DT → DT → A → A) (c : Cls) (l : ℕ) (dt : Option DT) (dv : Option DV) (ps : Params DT DV A) (d : Dist DT DV A)
    (h : baseInit conv c l dt dv ps = .ok d) :
    ∃ fdt fdv, checkNames c (ps.map (·.1)) = .ok () ∧ labelFrom (fun t => t.dtype) ps none = .ok fdt ∧ labelFrom (fun t => t.device) ps none = .ok fdv ∧
      d = ⟨l, (if dt.isNone && dv.isNone then ps else castParams conv dt dv ps), (if dt.isSome then dt else fdt), (if dv.isSome then dv else fdv)⟩ := by
  unfold baseInit at h
  cases h1 : checkNames c (ps.map (·.1)) with
  | error e => simp [h1, Except.bind] at h
  | ok u =>
    cases h2 : labelFrom (fun t : Tensor DT DV A => t.dtype) ps none with
    | error e => simp [h1, h2, Except.bind] at h
    | ok fdt =>
      cases h3 : labelFrom (fun t : Tensor DT DV A => t.device) ps none with
      | error e => simp [h1, h2, h3, Except.bind] at h
      | ok fdv =>
        simp only [h1, h2, h3, Except.bind, Except.ok.injEq] at h
        exact ⟨fdt, fdv, rfl, rfl, rfl, h.symm⟩

theorem baseInit_succeeds (conv : DT → DT → A → A) (c : Cls) (l : ℕ) (dt : Option DT) (dv : Option DV) (ps : Params DT DV A) :
    (∃ d, baseInit conv c l dt dv ps = .ok d) ↔ checkNames c (ps.map (·.1)) = .ok () ∧ (∃ r, labelFrom (fun t => t.dtype) ps none = .ok r) ∧
      ∃ r, labelFrom (fun t => t.device) ps none = .ok r := by
  constructor
  · rintro ⟨d, h⟩
    obtain ⟨fdt, fdv, h1, h2, h3, _⟩ := baseInit_ok conv c l dt dv ps d h
    exact ⟨h1, ⟨fdt, h2⟩, ⟨fdv, h3⟩⟩
  · rintro ⟨h1, ⟨fdt, h2⟩, ⟨fdv, h3⟩⟩
    unfold baseInit
    simp only [h1, h2, h3, Except.bind]
    exact ⟨_, rfl⟩

theorem shapeOf_one (ps : Params DT DV A) (k : String) (n : ℕ) :
    (shapeOf ps k).bind one = .ok n ↔ ∃ t : Tensor DT DV A, ps.lookup k = some (.tensor t) ∧ t.shape = [n] := by
  unfold shapeOf
  split
  · rename_i h
    simp [Except.bind, h]
  · rename_i h
    simp [Except.bind, h]
  · rename_i t h
    simp only [Except.bind, h, Option.some.injEq, Param.tensor.injEq, exists_eq_left']
    unfold one
    split
    · rename_i m hm
      simp [hm]
    · rename_i hm
      simp only [reduceCtorEq, false_iff]
      intro e
      exact hm _ e

theorem checkLength_ok (given : Option ℕ) (n m : ℕ) : checkLength given n = .ok m ↔ m = n ∧ ∀ l, given = some l → l = n := by
  unfold checkLength
  cases given with
  | none => simp [eq_comm]
  | some l =>
    by_cases h : l = n
    · subst h
      simp [eq_comm]
    · simp [h]

theorem sepInit_ok (conv : DT → DT → A → A) (c : Cls) (length : Option ℕ) (dt : Option DT) (dv : Option DV) (ps : Params DT DV A) (d : Dist DT DV A) :
    sepInit conv c length dt dv ps = .ok d ↔
      ∃ mu sigma : Tensor DT DV A, ∃ n, ps.lookup "mu" = some (.tensor mu) ∧ ps.lookup "sigma" = some (.tensor sigma) ∧ mu.shape = [n] ∧ sigma.shape = [n] ∧
        (∀ l, length = some l → l = n) ∧ baseInit conv c n dt dv ps = .ok d := by
  unfold sepInit
  cases h1 : (shapeOf ps "mu").bind one with
  | error e =>
    simp only [Except.bind, reduceCtorEq, false_iff, not_exists, not_and]
    intro mu sigma n hm hs hms
    have := (shapeOf_one ps "mu" n).2 ⟨mu, hm, hms⟩
    rw [h1] at this
    cases this
  | ok n =>
    obtain ⟨mu, hm, hms⟩ := (shapeOf_one ps "mu" n).1 h1
    cases h2 : (shapeOf ps "sigma").bind one with
    | error e =>
      simp only [Except.bind, reduceCtorEq, false_iff, not_exists, not_and]
      intro mu' sigma n' _ hs _ hss
      have := (shapeOf_one ps "sigma" n').2 ⟨sigma, hs, hss⟩
      rw [h2] at this
      cases this
    | ok m =>
      obtain ⟨sigma, hs, hss⟩ := (shapeOf_one ps "sigma" m).1 h2
      simp only [Except.bind]
      cases h3 : checkLength length n with
      | error e =>
        simp only [reduceCtorEq, false_iff, not_exists, not_and]
        intro mu' sigma' n' hm' _ hms' _ hl
        rw [hm] at hm'
        cases hm'
        rw [hms] at hms'
        cases hms'
        have := (checkLength_ok length n n).2 ⟨rfl, hl⟩
        rw [h3] at this
        cases this
      | ok l =>
        obtain ⟨rfl, hl⟩ := (checkLength_ok length n l).1 h3
        by_cases hnm : l = m
        · subst hnm
          simp only [ne_eq, not_true_eq_false, if_false]
          constructor
          · intro h
            exact ⟨mu, sigma, l, hm, hs, hms, hss, hl, h⟩
          · rintro ⟨mu', sigma', n', hm', _, hms', _, _, h⟩
            rw [hm] at hm'
            cases hm'
            rw [hms] at hms'
            cases hms'
            exact h
        · simp only [ne_eq, hnm, not_false_eq_true, if_true, reduceCtorEq, false_iff, not_exists, not_and]
          intro mu' sigma' n' hm' hs' hms' hss'
          rw [hm] at hm'
          cases hm'
          rw [hs] at hs'
          cases hs'
          rw [hms] at hms'
          cases hms'
          rw [hss] at hss'
          cases hss'
          exact absurd rfl hnm

/-- C109: the constructor of a separable Gaussian accepts exactly the acceptable dictionaries; an explicit dtype or device makes no difference (which is the part that is not as documented, see
`C109_violated_explicit_dtype`). -/
theorem C109_construct_partial (conv : DT → DT → A → A) (c : Cls) (hc : c.mandatory.Nodup) (length : Option ℕ) (dt : Option DT) (dv : Option DV) (ps : Params DT DV A)
    (hk : (ps.map (·.1)).Nodup) : (∃ d, sepInit conv c length dt dv ps = .ok d) ↔ Acceptable c length ps := by
  constructor
  · rintro ⟨d, h⟩
    obtain ⟨mu, sigma, n, a1, a2, a3, a4, a5, h'⟩ := (sepInit_ok conv c length dt dv ps d).1 h
    obtain ⟨h1, h2, h3⟩ := (baseInit_succeeds conv c n dt dv ps).1 ⟨d, h'⟩
    obtain ⟨k1, k2⟩ := (checkNames_spec c hc _ hk).1 h1
    exact ⟨⟨mu, sigma, n, a1, a2, a3, a4, a5⟩, k1, k2, (labelFrom_none _ ps).1 h2, (labelFrom_none _ ps).1 h3⟩
  · rintro ⟨⟨mu, sigma, n, a1, a2, a3, a4, a5⟩, k1, k2, h2, h3⟩
    obtain ⟨d, h⟩ := (baseInit_succeeds conv c n dt dv ps).2 ⟨(checkNames_spec c hc _ hk).2 ⟨k1, k2⟩, (labelFrom_none _ ps).2 h2, (labelFrom_none _ ps).2 h3⟩
    exact ⟨d, (sepInit_ok conv c length dt dv ps d).2 ⟨mu, sigma, n, a1, a2, a3, a4, a5, h⟩⟩

theorem castParam_none (conv : DT → DT → A → A) (hid : ∀ x a, conv x x a = a) (p : Param DT DV A) : castParam conv none none p = p := by
  cases p with
  | basic s => rfl
  | tensor t => simp [castParam, castTensor, hid]

/-- C109: a distribution has the dtype and the device it was asked to have, or else those of its parameters; each of its parameters is the given one, cast to that dtype and device; nothing else is
among its parameters; its `solution_length` is the length of `mu`. `conv` is what torch does to the elements when it casts: nothing if the dtype is the same. -/
theorem C109_result (conv : DT → DT → A → A) (hid : ∀ x a, conv x x a = a) (c : Cls) (length : Option ℕ) (dt : Option DT) (dv : Option DV) (ps : Params DT DV A)
    (d : Dist DT DV A) (h : sepInit conv c length dt dv ps = .ok d) :
    (∀ k, d.params.lookup k = (ps.lookup k).map (castParam conv dt dv)) ∧ (∀ mu, ps.lookup "mu" = some (.tensor mu) → mu.shape = [d.length]) ∧
      (∀ x, dt = some x → d.dtype = some x) ∧ (∀ y, dv = some y → d.device = some y) ∧
      (∀ k t, (k, Param.tensor t) ∈ ps → (dt = none → d.dtype = some t.dtype) ∧ (dv = none → d.device = some t.device)) := by
  obtain ⟨mu, sigma, n, a1, a2, a3, a4, a5, h'⟩ := (sepInit_ok conv c length dt dv ps d).1 h
  obtain ⟨fdt, fdv, h1, h2, h3, rfl⟩ := baseInit_ok conv c n dt dv ps d h'
  refine ⟨?_, ?_, ?_, ?_, ?_⟩
  · intro k
    simp only
    split
    · rename_i hn
      simp only [Bool.and_eq_true, Option.isNone_iff_eq_none] at hn
      obtain ⟨rfl, rfl⟩ := hn
      have : (castParam conv (none : Option DT) (none : Option DV)) = id := funext (castParam_none conv hid)
      rw [this]
      simp
    · exact lookup_map (castParam conv dt dv) ps k
  · intro mu' hm'
    rw [a1] at hm'
    cases hm'
    exact a3
  · rintro x rfl
    rfl
  · rintro y rfl
    rfl
  · intro k t ht
    constructor
    · rintro rfl
      exact labelFrom_result _ ps fdt h2 k t ht
    · rintro rfl
      exact labelFrom_result _ ps fdv h3 k t ht

/-- C109: an error of the constructor is one of three kinds. -/
theorem C109_errors (conv : DT → DT → A → A) (c : Cls) (length : Option ℕ) (dt : Option DT) (dv : Option DV) (ps : Params DT DV A) (e : PyErr)
    (h : sepInit conv c length dt dv ps = .error e) :
    (e = .keyError ∧ (ps.lookup "mu" = none ∨ ps.lookup "sigma" = none)) ∨
      (e = .attributeError ∧ ((∃ s, ps.lookup "mu" = some (.basic s)) ∨ ∃ s, ps.lookup "sigma" = some (.basic s))) ∨ e = .valueError := by
  have hshape : ∀ k e, (shapeOf ps k).bind one = .error e →
      (e = .keyError ∧ ps.lookup k = none) ∨ (e = .attributeError ∧ ∃ s, ps.lookup k = some (.basic s)) ∨ e = .valueError := by
    intro k e h
    unfold shapeOf at h
    split at h
    · rename_i hk
      cases h
      exact Or.inl ⟨rfl, hk⟩
    · rename_i s hk
      cases h
      exact Or.inr (Or.inl ⟨rfl, s, hk⟩)
    · simp only [Except.bind] at h
      unfold one at h
      split at h
      · cases h
      · cases h
        exact Or.inr (Or.inr rfl)
  unfold sepInit at h
  cases h1 : (shapeOf ps "mu").bind one with
  | error e' =>
    rw [h1] at h
    simp only [Except.bind, Except.error.injEq] at h
    subst h
    rcases hshape _ _ h1 with ⟨a, b⟩ | ⟨a, b⟩ | a
    · exact Or.inl ⟨a, Or.inl b⟩
    · exact Or.inr (Or.inl ⟨a, Or.inl b⟩)
    · exact Or.inr (Or.inr a)
  | ok n =>
    cases h2 : (shapeOf ps "sigma").bind one with
    | error e' =>
      rw [h1, h2] at h
      simp only [Except.bind, Except.error.injEq] at h
      subst h
      rcases hshape _ _ h2 with ⟨a, b⟩ | ⟨a, b⟩ | a
      · exact Or.inl ⟨a, Or.inr b⟩
      · exact Or.inr (Or.inl ⟨a, Or.inr b⟩)
      · exact Or.inr (Or.inr a)
    | ok m =>
      right; right
      rw [h1, h2] at h
      simp only [Except.bind] at h
      cases h3 : checkLength length n with
      | error e' =>
        simp only [h3, Except.error.injEq] at h
        subst h
        unfold checkLength at h3
        split at h3
        · cases h3
        · split at h3
          · cases h3
            rfl
          · cases h3
      | ok l =>
        simp only [h3] at h
        split at h
        · cases h
          rfl
        · unfold baseInit at h
          cases h4 : checkNames c (ps.map (·.1)) with
          | error e' =>
            simp only [h4, Except.bind, Except.error.injEq] at h
            subst h
            unfold checkNames at h4
            cases h5 : countNames c (ps.map (·.1)) 0 with
            | error e'' =>
              simp only [h5, Except.bind, Except.error.injEq] at h4
              subst h4
              exact countNames_error _ _ _ _ h5
            | ok k =>
              simp only [h5, Except.bind] at h4
              split at h4
              · cases h4
                rfl
              · cases h4
          | ok u =>
            cases h5 : labelFrom (fun t : Tensor DT DV A => t.dtype) ps none with
            | error e' =>
              simp only [h4, h5, Except.bind, Except.error.injEq] at h
              subst h
              exact labelFrom_error _ _ _ _ h5
            | ok fdt =>
              cases h6 : labelFrom (fun t : Tensor DT DV A => t.device) ps none with
              | error e' =>
                simp only [h4, h5, h6, Except.bind, Except.error.injEq] at h
                subst h
                exact labelFrom_error _ _ _ _ h6
              | ok fdv => simp [h4, h5, h6, Except.bind] at h

/-! ### Dtype and device along any history -/

theorem uniform_baseInit (conv : DT → DT → A → A) (c : Cls) (l : ℕ) (dt : Option DT) (dv : Option DV) (ps : Params DT DV A) (d : Dist DT DV A)
    (h : baseInit conv c l dt dv ps = .ok d) : Uniform d := by
  obtain ⟨fdt, fdv, h1, h2, h3, rfl⟩ := baseInit_ok conv c l dt dv ps d h
  intro k t ht
  simp only at ht ⊢
  split at ht
  · rename_i hn
    simp only [Bool.and_eq_true, Option.isNone_iff_eq_none] at hn
    obtain ⟨rfl, rfl⟩ := hn
    exact ⟨(labelFrom_result _ ps fdt h2 k t ht).symm, (labelFrom_result _ ps fdv h3 k t ht).symm⟩
  · simp only [castParams, List.mem_map, Prod.mk.injEq] at ht
    obtain ⟨⟨k', p⟩, hp, rfl, he⟩ := ht
    cases p with
    | basic s => simp [castParam] at he
    | tensor t0 =>
      simp only [castParam, Param.tensor.injEq] at he
      subst he
      constructor
      · cases dt with
        | none => exact (labelFrom_result _ ps fdt h2 _ _ hp).symm
        | some x => rfl
      · cases dv with
        | none => exact (labelFrom_result _ ps fdv h3 _ _ hp).symm
        | some y => rfl

theorem uniform_sepInit (conv : DT → DT → A → A) (c : Cls) (length : Option ℕ) (dt : Option DT) (dv : Option DV) (ps : Params DT DV A) (d : Dist DT DV A)
    (h : sepInit conv c length dt dv ps = .ok d) : Uniform d := by
  obtain ⟨_, _, n, _, _, _, _, _, h'⟩ := (sepInit_ok conv c length dt dv ps d).1 h
  exact uniform_baseInit conv c n dt dv ps d h'

/-- The distribution knows its dtype and its device. -/
def Labelled (d : Dist DT DV A) : Prop := d.dtype.isSome ∧ d.device.isSome

theorem labelled_sepInit (conv : DT → DT → A → A) (c : Cls) (length : Option ℕ) (dt : Option DT) (dv : Option DV) (ps : Params DT DV A) (d : Dist DT DV A)
    (h : sepInit conv c length dt dv ps = .ok d) : Labelled d := by
  obtain ⟨mu, _, n, hm, _, _, _, _, h'⟩ := (sepInit_ok conv c length dt dv ps d).1 h
  obtain ⟨fdt, fdv, h1, h2, h3, rfl⟩ := baseInit_ok conv c n dt dv ps d h'
  have e1 := labelFrom_result _ ps fdt h2 _ _ (mem_of_lookup hm)
  have e2 := labelFrom_result _ ps fdv h3 _ _ (mem_of_lookup hm)
  constructor
  · cases dt <;> simp [e1]
  · cases dv <;> simp [e2]

theorem uniform_setParam (conv : DT → DT → A → A) (k : String) (t : Tensor DT DV A) (d : Dist DT DV A) (hl : Labelled d) (h : Uniform d) : Uniform (setParam conv k t d) := by
  intro k' t' ht
  simp only [setParam] at ht ⊢
  rcases mem_setKey _ _ _ _ ht with e | e
  · simp only [Prod.mk.injEq, Param.tensor.injEq] at e
    obtain ⟨_, rfl⟩ := e
    obtain ⟨x, hx⟩ := Option.isSome_iff_exists.1 hl.1
    obtain ⟨y, hy⟩ := Option.isSome_iff_exists.1 hl.2
    simp [castTensor, hx, hy]
  · exact h k' t' e

/-- C109: whatever is done with it, all tensors of a distribution have the dtype and are on the device which it reports. -/
theorem C109_uniform (conv : DT → DT → A → A) (c : Cls) (length : Option ℕ) (dt : Option DT) (dv : Option DV) (ps : Params DT DV A) (d : Dist DT DV A)
    (h : sepInit conv c length dt dv ps = .ok d) (ops : List (Op DT DV A)) : Uniform (ops.foldl (step conv c) d) := by
  suffices H : ∀ (ops : List (Op DT DV A)) (d : Dist DT DV A), Labelled d → Uniform d → Uniform (ops.foldl (step conv c) d) from
    H ops d (labelled_sepInit conv c length dt dv ps d h) (uniform_sepInit conv c length dt dv ps d h)
  intro ops
  induction ops with
  | nil => exact fun d _ hu => hu
  | cons o ops ih =>
    intro d hl hu
    rw [List.foldl_cons]
    have key : Labelled (step conv c d o) ∧ Uniform (step conv c d o) := by
      cases o with
      | move y =>
        simp only [step]
        split
        · rename_i d' hd
          unfold sepTo at hd
          split at hd
          · cases hd
            exact ⟨hl, hu⟩
          · exact ⟨labelled_sepInit _ _ _ _ _ _ _ hd, uniform_sepInit _ _ _ _ _ _ _ hd⟩
        · exact ⟨hl, hu⟩
      | modified x y news =>
        simp only [step]
        split
        · rename_i d' hd
          exact ⟨labelled_sepInit _ _ _ _ _ _ _ hd, uniform_sepInit _ _ _ _ _ _ _ hd⟩
        · exact ⟨hl, hu⟩
      | setMu t => exact ⟨hl, uniform_setParam conv _ t d hl hu⟩
      | setSigma t => exact ⟨hl, uniform_setParam conv _ t d hl hu⟩
    exact ih _ key.1 key.2

/-! ### Copies -/

theorem castParam_uniform (conv : DT → DT → A → A) (hid : ∀ x a, conv x x a = a) (d : Dist DT DV A) (hu : Uniform d) (k : String) (p : Param DT DV A)
    (hp : d.params.lookup k = some p) : castParam conv d.dtype d.device p = p := by
  cases p with
  | basic s => rfl
  | tensor t =>
    obtain ⟨h1, h2⟩ := hu k t (mem_of_lookup hp)
    simp [castParam, castTensor, ← h1, ← h2, hid]

/-- C109: a modified copy has the new values (cast to its dtype and device) where some are given, and everything else as in the original: all other parameters, and dtype and device unless others are
asked for. -/
theorem C109_modified_copy (conv : DT → DT → A → A) (hid : ∀ x a, conv x x a = a) (c : Cls) (d : Dist DT DV A) (hl : Labelled d) (hu : Uniform d) (dt : Option DT) (dv : Option DV)
    (news : Params DT DV A) (hn : (news.map (·.1)).Nodup) (d' : Dist DT DV A) (h : sepModifiedCopy conv c d dt dv news = .ok d') :
    d'.dtype = dt.or d.dtype ∧ d'.device = dv.or d.device ∧
      (∀ k v, news.lookup k = some v → d'.params.lookup k = some (castParam conv d'.dtype d'.device v)) ∧
      (∀ k, news.lookup k = none → d'.params.lookup k = (d.params.lookup k).map (castParam conv dt dv)) ∧
      (∀ k, dt = none → dv = none → news.lookup k = none → d'.params.lookup k = d.params.lookup k) := by
  unfold sepModifiedCopy at h
  obtain ⟨x, hx⟩ := Option.isSome_iff_exists.1 hl.1
  obtain ⟨y, hy⟩ := Option.isSome_iff_exists.1 hl.2
  obtain ⟨x', hx'⟩ : ∃ x', (if dt.isNone then d.dtype else dt) = some x' := by cases dt <;> simp [hx]
  obtain ⟨y', hy'⟩ : ∃ y', (if dv.isNone then d.device else dv) = some y' := by cases dv <;> simp [hy]
  simp only at h
  rw [hx', hy'] at h
  obtain ⟨r1, _, r3, r4, _⟩ := C109_result conv hid c none (some x') (some y') _ d' h
  have e1 := r3 x' rfl
  have e2 := r4 y' rfl
  have ed : d'.dtype = dt.or d.dtype := by rw [e1, ← hx']; cases dt <;> rfl
  have ev : d'.device = dv.or d.device := by rw [e2, ← hy']; cases dv <;> rfl
  refine ⟨ed, ev, ?_, ?_, ?_⟩
  · intro k v hk
    rw [r1, lookup_updateDict news d.params hn, hk, e1, e2]
    rfl
  · intro k hk
    rw [r1, lookup_updateDict news d.params hn, hk, Option.none_or]
    cases hp : d.params.lookup k with
    | none => rfl
    | some p =>
      cases p with
      | basic s => rfl
      | tensor t =>
        obtain ⟨h1, h2⟩ := hu k t (mem_of_lookup hp)
        simp only [Option.map_some, castParam, castTensor, Option.getD_some, Option.some.injEq, Param.tensor.injEq]
        cases dt with
        | none =>
          simp only [Option.isNone_none, if_true, ← h1, Option.some.injEq] at hx'
          subst hx'
          cases dv with
          | none =>
            simp only [Option.isNone_none, if_true, ← h2, Option.some.injEq] at hy'
            subst hy'
            rfl
          | some z =>
            simp at hy'
            subst hy'
            rfl
        | some w =>
          simp at hx'
          subst hx'
          cases dv with
          | none =>
            simp only [Option.isNone_none, if_true, ← h2, Option.some.injEq] at hy'
            subst hy'
            rfl
          | some z =>
            simp at hy'
            subst hy'
            rfl
  · rintro k rfl rfl hk
    rw [r1, lookup_updateDict news d.params hn, hk, Option.none_or]
    simp only [Option.isNone_none, if_true] at hx' hy'
    cases hp : d.params.lookup k with
    | none => rfl
    | some p =>
      have := castParam_uniform conv hid d hu k p hp
      rw [hx', hy'] at this
      simp [this]

/-- C109: `to` gives a distribution on the requested device, with the same dtype, length and parameters (moved to that device). -/
theorem C109_to (conv : DT → DT → A → A) (hid : ∀ x a, conv x x a = a) (c : Cls) (d : Dist DT DV A) (hl : Labelled d) (hu : Uniform d) (dv : DV) (d' : Dist DT DV A)
    (h : sepTo conv c d dv = .ok d') :
    d'.device = some dv ∧ d'.dtype = d.dtype ∧ d'.length = d.length ∧ ∀ k, d'.params.lookup k = (d.params.lookup k).map (castParam conv none (some dv)) := by
  unfold sepTo at h
  split at h
  · rename_i hd
    cases h
    refine ⟨hd, rfl, rfl, ?_⟩
    intro k
    cases hp : d.params.lookup k with
    | none => rfl
    | some p =>
      cases p with
      | basic s => rfl
      | tensor t =>
        obtain ⟨_, h2⟩ := hu k t (mem_of_lookup hp)
        rw [hd] at h2
        cases h2
        simp [castParam, castTensor, hid]
  · obtain ⟨r1, r2, _, r4, r5⟩ := C109_result conv hid c _ _ _ _ d' h
    obtain ⟨mu, _, n, hm, _, hms, _, hlen, _⟩ := (sepInit_ok _ _ _ _ _ _ _).1 h
    refine ⟨r4 dv rfl, ?_, ?_, r1⟩
    · rw [(r5 _ _ (mem_of_lookup hm)).1 rfl, (hu _ _ (mem_of_lookup hm)).1]
    · have e := r2 mu hm
      rw [hms] at e
      have := hlen _ rfl
      simp only [List.cons.injEq, and_true] at e
      omega

/-! ### Where the claim fails -/

/-- C109 fails: an explicit dtype is no help if the given tensors differ in dtype: the constructor raises an error although it has been told which dtype to cast to. -/
theorem C109_violated_explicit_dtype (conv : DT → DT → A → A) (c : Cls) (length : Option ℕ) (dt : DT) (dv : Option DV) (ps : Params DT DV A) (k k' : String)
    (t t' : Tensor DT DV A) (h : (k, Param.tensor t) ∈ ps) (h' : (k', Param.tensor t') ∈ ps) (hne : t.dtype ≠ t'.dtype) :
    ∃ e, sepInit conv c length (some dt) dv ps = .error e := by
  cases hs : sepInit conv c length (some dt) dv ps with
  | error e => exact ⟨e, rfl⟩
  | ok d =>
    obtain ⟨_, _, n, _, _, _, _, _, hb⟩ := (sepInit_ok _ _ _ _ _ _ _).1 hs
    obtain ⟨_, h2, _⟩ := (baseInit_succeeds conv c n (some dt) dv ps).1 ⟨d, hb⟩
    exact absurd ((labelFrom_none _ ps).1 h2 _ _ _ _ h h') hne

/-- C109 fails: in the same way, `modified_copy` cannot be given a tensor of another dtype, although it casts to the dtype of the distribution. -/
theorem C109_violated_modified_copy (conv : DT → DT → A → A) (c : Cls) (d : Dist DT DV A) (hu : Uniform d) (sigma mu : Tensor DT DV A)
    (hs : d.params.lookup "sigma" = some (.tensor sigma)) (hne : some mu.dtype ≠ d.dtype) (dt : Option DT) (dv : Option DV) :
    ∃ e, sepModifiedCopy conv c d dt dv [("mu", .tensor mu)] = .error e := by
  cases hx : sepModifiedCopy conv c d dt dv [("mu", .tensor mu)] with
  | error e => exact ⟨e, rfl⟩
  | ok d' =>
    unfold sepModifiedCopy at hx
    obtain ⟨m', s', n, hm, hs', _, _, _, hb⟩ := (sepInit_ok _ _ _ _ _ _ _).1 hx
    have hnod : (([("mu", .tensor mu)] : Params DT DV A).map (·.1)).Nodup := by simp
    rw [lookup_updateDict _ _ hnod] at hs' hm
    have hs'' : d.params.lookup "sigma" = some (.tensor s') := by simpa [List.lookup] using hs'
    have hm' : m' = mu := by
      simp [List.lookup] at hm
      exact hm.symm
    subst hm'
    obtain ⟨_, h2, _⟩ := (baseInit_succeeds _ _ _ _ _ _).1 ⟨d', hb⟩
    have m1 : ("mu", Param.tensor m') ∈ updateDict d.params [("mu", .tensor m')] := mem_of_lookup (by rw [lookup_updateDict _ _ hnod]; simp [List.lookup])
    have m2 : ("sigma", Param.tensor s') ∈ updateDict d.params [("mu", .tensor m')] := mem_of_lookup (by rw [lookup_updateDict _ _ hnod]; simpa [List.lookup] using hs'')
    have := (labelFrom_none _ _).1 h2 _ _ _ _ m1 m2
    exact absurd ((congrArg some this).trans (hu _ _ (mem_of_lookup hs'')).1) hne

/-! ### ExpGaussian -/

/-- C109: a call of the constructor of `ExpGaussian` leaves the dictionary of the caller as it was if `sigma` is a matrix already and `sigma_inv` is given. -/
theorem C109_exp_caller_partial (conv : DT → DT → A → A) (lib : Lib A) (length : Option ℕ) (dt : Option DT) (dv : Option DV) (ps : Params DT DV A) (sigma inv : Tensor DT DV A)
    (hs : ps.lookup "sigma" = some (.tensor sigma)) (h2 : sigma.shape.length ≠ 1) (hi : ps.lookup "sigma_inv" = some (.tensor inv)) :
    (expInit conv lib length dt dv ps).state = ps := by
  unfold expInit
  split
  · rfl
  · have hp : expPrepare lib ps = ⟨ps, .ok ()⟩ := by
      simp [expPrepare, fixSigma, fixInverse, hs, h2, hi]
    rw [hp]

/-- C109 fails for `ExpGaussian`: its constructor writes into the dictionary of the caller; whenever it succeeds with a vector as `sigma`, that dictionary has a matrix there afterwards, and
`sigma_inv` in addition. -/
theorem C109_violated_exp_constructor (conv : DT → DT → A → A) (lib : Lib A) (length : Option ℕ) (dt : Option DT) (dv : Option DV) (ps : Params DT DV A) (sigma : Tensor DT DV A) (n : ℕ)
    (hs : ps.lookup "sigma" = some (.tensor sigma)) (h1 : sigma.shape = [n]) (hi : ps.lookup "sigma_inv" = none) (d : Dist DT DV A)
    (h : (expInit conv lib length dt dv ps).result = .ok d) :
    ∃ inv, (expInit conv lib length dt dv ps).state.lookup "sigma" = some (.tensor { sigma with shape := [n, n], data := lib.diag sigma.data }) ∧
      lib.inverse (lib.diag sigma.data) = some inv ∧
      (expInit conv lib length dt dv ps).state.lookup "sigma_inv" = some (.tensor { sigma with shape := [n, n], data := inv }) := by
  have hsq : makeSquare lib sigma = { sigma with shape := [n, n], data := lib.diag sigma.data } := by
    unfold makeSquare
    rw [h1]
  have hf : fixSigma lib ps = .ok (setKey "sigma" (.tensor (makeSquare lib sigma)) ps) := by
    simp [fixSigma, hs, h1]
  cases hinv : lib.inverse (lib.diag sigma.data) with
  | none =>
    have hg : fixInverse lib (setKey "sigma" (.tensor (makeSquare lib sigma)) ps) = .error .runtimeError := by
      simp [fixInverse, lookup_setKey, hi, hsq, hinv]
    exfalso
    unfold expInit at h
    split at h
    · cases h
    · simp only [expPrepare, hf, hg] at h
      cases h
  | some inv =>
    have hg : fixInverse lib (setKey "sigma" (.tensor (makeSquare lib sigma)) ps) =
        .ok (setKey "sigma_inv" (.tensor { sigma with shape := [n, n], data := inv }) (setKey "sigma" (.tensor (makeSquare lib sigma)) ps)) := by
      simp [fixInverse, lookup_setKey, hi, hsq, hinv]
    have hst : (expInit conv lib length dt dv ps).state =
        setKey "sigma_inv" (.tensor { sigma with shape := [n, n], data := inv }) (setKey "sigma" (.tensor (makeSquare lib sigma)) ps) := by
      unfold expInit
      split
      · rename_i e he
        exfalso
        unfold expInit at h
        rw [he] at h
        cases h
      · simp only [expPrepare, hf, hg]
    refine ⟨inv, ?_, rfl, ?_⟩
    · rw [hst]
      simp [lookup_setKey, hsq]
    · rw [hst]
      simp [lookup_setKey]

/-- One-dimensional `to_global_coordinates` (distributions.py 926-936). -/
def toGlobal1 (mu sigma z : ℚ) : ℚ := mu + sigma * z

/-- One-dimensional `to_local_coordinates` (distributions.py 938-948). -/
def toLocal1 (mu sigmaInv x : ℚ) : ℚ := sigmaInv * (x - mu)

/-- The rationals as 1x1 matrices. -/
def lib1 : Lib ℚ := ⟨id, fun x => if x = 0 then none else some x⁻¹⟩

/-- The dictionary for `mu = [0]`, `sigma = [1]`. -/
def ps1 : Params Unit Unit ℚ := [("mu", .tensor ⟨(), (), [1], 0⟩), ("sigma", .tensor ⟨(), (), [1], 1⟩)]

/-- What `ExpGaussian(ps1)` is. -/
def dist1 : Dist Unit Unit ℚ :=
  ⟨1, [("mu", .tensor ⟨(), (), [1], 0⟩), ("sigma", .tensor ⟨(), (), [1, 1], 1⟩), ("sigma_inv", .tensor ⟨(), (), [1, 1], 1⟩)], some (), some ()⟩

/-- Its modified copy with `sigma = [[2]]`: the inverse is still that of the old `sigma`. -/
def dist2 : Dist Unit Unit ℚ :=
  ⟨1, [("mu", .tensor ⟨(), (), [1], 0⟩), ("sigma", .tensor ⟨(), (), [1, 1], 2⟩), ("sigma_inv", .tensor ⟨(), (), [1, 1], 1⟩)], some (), some ()⟩

/-- C109 fails for `ExpGaussian`: `modified_copy(sigma=...)` and the setter of `sigma` keep the `sigma_inv` of the old `sigma`; going to global coordinates and back is then not the identity. -/
theorem C109_violated_stale_inverse :
    (expInit (fun _ _ x => x) lib1 none none none ps1).result = .ok dist1 ∧
      expModifiedCopy (fun _ _ x => x) lib1 dist1 none none [("sigma", .tensor ⟨(), (), [1, 1], 2⟩)] = .ok dist2 ∧
      setParam (fun _ _ x => x) "sigma" ⟨(), (), [1, 1], 2⟩ dist1 = dist2 ∧
      (∀ z : ℚ, toLocal1 0 1 (toGlobal1 0 1 z) = z) ∧ toLocal1 0 1 (toGlobal1 0 2 1) ≠ 1 := by
  refine ⟨by decide +kernel, by decide +kernel, by decide +kernel, ?_, by decide +kernel⟩
  intro z
  simp [toLocal1, toGlobal1]

/-- C109: the rates which `ExpGaussian.update_parameters` uses are those given for `d` and `M`, or else those given for `mu` and `sigma`; existing entries are not changed. -/
theorem C109_rates {R : Type} (rates : List (String × R)) (a b : R) (hd : (rates.lookup "d").or (rates.lookup "mu") = some a) (hm : (rates.lookup "M").or (rates.lookup "sigma") = some b) :
    (expRates rates).result = .ok (a, b) ∧ ∀ k v, rates.lookup k = some v → (expRates rates).state.lookup k = some v := by
  unfold expRates
  cases h1 : rates.lookup "d" with
  | some x =>
    rw [h1] at hd
    cases hd
    cases h2 : rates.lookup "M" with
    | some y =>
      rw [h2] at hm
      cases hm
      simp [h1, h2]
    | none =>
      rw [h2] at hm
      simp only [Option.none_or] at hm
      simp only [h2, hm]
      constructor
      · simp [lookup_setKey, h1]
      · intro k v hk
        simp only [lookup_setKey, h1, if_true]
        simp only [show ("d" = "M") = False from by decide, if_false, h1]
        rw [lookup_setKey]
        by_cases e : k = "M"
        · subst e
          rw [h2] at hk
          cases hk
        · rw [if_neg e]
          exact hk
  | none =>
    rw [h1] at hd
    simp only [Option.none_or] at hd
    simp only [hd]
    cases h2 : rates.lookup "M" with
    | some y =>
      rw [h2] at hm
      cases hm
      constructor
      · simp [lookup_setKey, h2]
      · intro k v hk
        simp only [lookup_setKey, h2, show ("M" = "d") = False from by decide, if_false, if_true]
        by_cases e : k = "d"
        · subst e
          rw [h1] at hk
          cases hk
        · rw [if_neg e]
          exact hk
    | none =>
      rw [h2] at hm
      simp only [Option.none_or] at hm
      constructor
      · simp [lookup_setKey, h2, hm]
      · intro k v hk
        simp only [lookup_setKey, h2, hm, show ("M" = "d") = False from by decide, show ("sigma" = "d") = False from by decide, show ("d" = "M") = False from by decide, if_false, if_true]
        by_cases e : k = "M"
        · subst e
          rw [h2] at hk
          cases hk
        · rw [if_neg e]
          by_cases e : k = "d"
          · subst e
            rw [h1] at hk
            cases hk
          · rw [if_neg e]
            exact hk

/-- C109 fails for `ExpGaussian`: `update_parameters` writes into the caller's dictionary of learning rates, and when that dictionary is used again with a new rate for `mu`, the old one is applied. -/
theorem C109_violated_rates {R : Type} (a a' b : R) :
    let first := expRates [("mu", a), ("sigma", b)]
    first.result = .ok (a, b) ∧ first.state = [("mu", a), ("sigma", b), ("d", a), ("M", b)] ∧ (expRates (setKey "mu" a' first.state)).result = .ok (a, b) := by
  refine ⟨rfl, rfl, rfl⟩

/-! ### Non-vacuity -/

/-- Two dtypes, two devices. -/
def psOk : Params Bool Bool ℕ := [("mu", .tensor ⟨true, false, [3], 5⟩), ("sigma", .tensor ⟨true, false, [3], 7⟩), ("divide_mu_grad_by", .basic "num_solutions")]

example : sepInit (fun _ _ x => x) sepGaussian (some 3) (some false) none psOk =
    .ok ⟨3, [("mu", .tensor ⟨false, false, [3], 5⟩), ("sigma", .tensor ⟨false, false, [3], 7⟩), ("divide_mu_grad_by", .basic "num_solutions")], some false, some false⟩ := by decide +kernel

example : Acceptable sepGaussian (some 3) psOk := (C109_construct_partial (fun _ _ x => x) sepGaussian (by decide) (some 3) none none psOk (by decide)).1 ⟨_, rfl⟩

example : sepInit (fun _ _ x => x) sepGaussian none none none (psOk ++ [("nonsense", .basic "x")]) = .error .valueError := by decide +kernel
example : sepInit (fun _ _ x => x) sepGaussian (some 4) none none psOk = .error .valueError := by decide +kernel
example : sepInit (fun _ _ x => x) sepGaussian none none none (psOk.drop 1) = .error .keyError := by decide +kernel

/-- The setters of a separable Gaussian do not check lengths: after `mu` has been set to a longer vector, copies cannot be made any more. -/
example : ∃ d, sepInit (fun _ _ x => x) sepGaussian none none none psOk = .ok d ∧
    sepModifiedCopy (fun _ _ x => x) sepGaussian (setParam (fun _ _ x => x) "mu" ⟨true, false, [4], 1⟩ d) none none [] = .error .valueError := ⟨_, rfl, by decide +kernel⟩

end EvoTorch.DistributionObjects
