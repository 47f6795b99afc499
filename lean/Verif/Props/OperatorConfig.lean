import Verif.Model.OperatorConfig
import Verif.Props.Operators
/-! Property C128: how genetic operators are configured, which calls succeed, and with how many children. -/
namespace EvoTorch.OperatorConfig
open EvoTorch.AlgoConfig (normalizeObjIndex)
open EvoTorch.Operators (numTournaments)

/-! ### Specification -/

/-- The objective meant by an index: the only one if there is no index, otherwise counted from the end if negative. -/
def Means (numObjs : ℕ) : Option ℤ → ℕ → Prop
  | none, j => numObjs = 1 ∧ j = 0
  | some i, j => (0 ≤ i ∧ (j : ℤ) = i ∨ i < 0 ∧ (j : ℤ) = numObjs + i) ∧ j < numObjs

/-- `n` is `x` without its fractional part. -/
def Truncates (x : ℚ) (n : ℤ) : Prop := (0 ≤ x → (n : ℚ) ≤ x ∧ x < n + 1) ∧ (x < 0 → x ≤ n ∧ (n : ℚ) - 1 < x)

/-- The number of children that a batch of some size is to have: as many as asked for; without a wish, as many as there are solutions, and one more if that is odd; with a rate, the even number nearest to the product. -/
def Count (len : ℕ) (numChildren : Option ℤ) (rate : Option ℚ) (m : ℕ) : Prop :=
  Even m ∧ (∀ c, numChildren = some c → (m : ℤ) = c) ∧
  (numChildren = none → rate = none → len ≤ m ∧ m ≤ len + 1) ∧
  ∀ r, rate = some r → (m : ℚ) ≤ len * r + 1 ∧ len * r - 1 < m

/-! ### Helpers -/

theorem toInt_spec (x : ℚ) : Truncates x (toInt x) := by
  unfold toInt
  constructor
  · intro h; rw [if_pos h]; exact ⟨Int.floor_le x, Int.lt_floor_add_one x⟩
  · intro h; rw [if_neg (not_le.mpr h)]
    refine ⟨Int.le_ceil x, ?_⟩
    have := Int.ceil_lt_add_one x
    linarith

theorem normalize_spec (m : ℕ) (i : Option ℤ) (j : ℕ) : normalizeObjIndex m i = .ok j ↔ Means m i j := by
  cases i with
  | none =>
    simp only [normalizeObjIndex, Means]
    split
    · rename_i h; simp [h, eq_comm]
    · rename_i h; simp [h]
  | some i =>
    simp only [normalizeObjIndex, Means]
    by_cases hi : i < 0
    · simp only [if_pos hi]
      by_cases h : (m : ℤ) + i < 0 ∨ (m : ℤ) + i ≥ m
      · rw [if_pos h]; simp only [reduceCtorEq, false_iff]; omega
      · rw [if_neg h, Except.ok.injEq]; omega
    · simp only [if_neg hi]
      by_cases h : i < 0 ∨ i ≥ m
      · rw [if_pos h]; simp only [reduceCtorEq, false_iff]; omega
      · rw [if_neg h, Except.ok.injEq]; omega

theorem normalize_error (m : ℕ) (i : Option ℤ) (h : ∀ j, ¬ Means m i j) : normalizeObjIndex m i = .error (if i = none then .valueError else .indexError) := by
  cases hn : normalizeObjIndex m i with
  | ok j => exact absurd ((normalize_spec m i j).mp hn) (h j)
  | error e =>
    cases i with
    | none =>
      simp only [normalizeObjIndex] at hn
      split at hn
      · cases hn
      · cases hn; rfl
    | some i =>
      simp only [normalizeObjIndex] at hn
      generalize (if i < 0 then (m : ℤ) + i else i) = z at hn
      by_cases hz : z < 0 ∨ z ≥ m
      · rw [if_pos hz] at hn; cases hn; rfl
      · rw [if_neg hz] at hn; cases hn

/-! ### Construction -/

/-- **C128.** A cross-over accepts a problem, an existing objective or none, and not both a number of children and a rate; and keeps what it is given. -/
theorem C128_cross_over (p : Option Prob) (a : CrossArgs) (c : Cross) :
    crossInit p a = .ok c ↔
      ∃ q, p = some q ∧ c.base = ⟨q, q.lb, q.ub⟩ ∧
        (match a.objIndex with | none => c.objIndex = none | some i => ∃ j, c.objIndex = some j ∧ Means q.numObjs (some i) j) ∧
        (a.numChildren = none ∨ a.rate = none) ∧ Truncates a.tournament c.tournament ∧
        (match a.numChildren with | none => c.numChildren = none | some x => ∃ n, c.numChildren = some n ∧ Truncates x n) ∧ c.rate = a.rate := by
  have huniq : ∀ x n n', Truncates x n → Truncates x n' → n = n' := by
    intro x n n' h h'
    by_cases hx : 0 ≤ x
    · have h1 := h.1 hx; have h2 := h'.1 hx
      have e1 : (n : ℚ) < n' + 1 := by linarith
      have e2 : (n' : ℚ) < n + 1 := by linarith
      have e1 : n < n' + 1 := by exact_mod_cast e1
      have e2 : n' < n + 1 := by exact_mod_cast e2
      omega
    · have h1 := h.2 (not_le.mp hx); have h2 := h'.2 (not_le.mp hx)
      have e1 : (n : ℚ) < n' + 1 := by linarith
      have e2 : (n' : ℚ) < n + 1 := by linarith
      have e1 : n < n' + 1 := by exact_mod_cast e1
      have e2 : n' < n + 1 := by exact_mod_cast e2
      omega
  cases p with
  | none => simp [crossInit, operatorInit, bind, Except.bind]
  | some q =>
    obtain ⟨tournament, objIndex, numChildren, rate⟩ := a
    obtain ⟨base, objIndex', tournament', numChildren', rate'⟩ := c
    simp only [crossInit, operatorInit, bind, Except.bind, Option.some.injEq]
    have key : ∀ (i : Option ℕ), (if numChildren.isSome && rate.isSome then (.error .valueError : Except PyErr Cross) else .ok ⟨⟨q, q.lb, q.ub⟩, i, toInt tournament, numChildren.map toInt, rate⟩) = .ok ⟨base, objIndex', tournament', numChildren', rate'⟩ ↔
        base = ⟨q, q.lb, q.ub⟩ ∧ objIndex' = i ∧ (numChildren = none ∨ rate = none) ∧ Truncates tournament tournament' ∧
        (match numChildren with | none => numChildren' = none | some x => ∃ n, numChildren' = some n ∧ Truncates x n) ∧ rate' = rate := by
      intro i
      have ht : Truncates tournament tournament' ↔ toInt tournament = tournament' := ⟨fun h => huniq _ _ _ (toInt_spec _) h, fun h => h ▸ toInt_spec _⟩
      have hc : (match numChildren with | none => numChildren' = none | some x => ∃ n, numChildren' = some n ∧ Truncates x n) ↔ numChildren.map toInt = numChildren' := by
        cases numChildren with
        | none => simp [eq_comm]
        | some x =>
          constructor
          · rintro ⟨n, rfl, h⟩; rw [huniq _ _ _ h (toInt_spec _)]; rfl
          · intro h; exact ⟨toInt x, h.symm, toInt_spec _⟩
      rw [ht, hc]
      cases numChildren <;> cases rate <;> simp [eq_comm]
    cases objIndex with
    | none =>
      simp only [optObjIndex]
      rw [key]
      constructor
      · rintro ⟨h1, h2, h3⟩; exact ⟨q, rfl, h1, h2, h3⟩
      · rintro ⟨q', rfl, h1, h2, h3⟩; exact ⟨h1, h2, h3⟩
    | some i =>
      simp only [optObjIndex]
      cases hn : normalizeObjIndex q.numObjs (some i) with
      | error e =>
        simp only [Except.map, reduceCtorEq, false_iff]
        rintro ⟨q', rfl, h1, ⟨j, -, h2⟩, -⟩
        rw [(normalize_spec _ _ _).mpr h2] at hn
        cases hn
      | ok j =>
        simp only [Except.map]
        rw [key]
        have hj := (normalize_spec _ _ _).mp hn
        constructor
        · rintro ⟨h1, h2, h3⟩; exact ⟨q, rfl, h1, ⟨j, h2, hj⟩, h3⟩
        · rintro ⟨q', rfl, h1, ⟨j', h2, h2'⟩, h3⟩
          rw [(normalize_spec _ _ _).mpr h2'] at hn
          cases hn
          exact ⟨h1, h2, h3⟩

/-- **C128.** What is refused: something which is not a problem with a TypeError, an objective that does not exist with an IndexError, and otherwise both a number of children and a rate with a ValueError. -/
theorem C128_cross_over_refused (q : Prob) (a : CrossArgs) :
    crossInit none a = .error .typeError ∧
    (∀ i, a.objIndex = some i → (∀ j, ¬ Means q.numObjs (some i) j) → crossInit (some q) a = .error .indexError) ∧
    ((∀ i, a.objIndex = some i → ∃ j, Means q.numObjs (some i) j) → a.numChildren ≠ none → a.rate ≠ none → crossInit (some q) a = .error .valueError) := by
  refine ⟨rfl, ?_, ?_⟩
  · intro i hi h
    have := normalize_error q.numObjs (some i) h
    simp [crossInit, operatorInit, bind, Except.bind, hi, optObjIndex, this, Except.map]
  · intro h h1 h2
    obtain ⟨x, hx⟩ := Option.ne_none_iff_exists'.mp h1
    obtain ⟨y, hy⟩ := Option.ne_none_iff_exists'.mp h2
    cases hi : a.objIndex with
    | none => simp [crossInit, operatorInit, bind, Except.bind, hi, optObjIndex, hx, hy]
    | some i =>
      obtain ⟨j, hj⟩ := h i hi
      simp [crossInit, operatorInit, bind, Except.bind, hi, optObjIndex, hx, hy, (normalize_spec _ _ _).mpr hj, Except.map]

/-- **C128.** The cross-overs: the number of cutting points is 1, 2 or a given number of at least one. -/
theorem C128_cross_over_kinds (p : Option Prob) (a : CrossArgs) (o : CrossOp) :
    (∀ x, multiPointInit p a (some x) = .ok o ↔ crossInit p a = .ok o.cross ∧ ∃ m, Truncates x m ∧ 1 ≤ m ∧ o.kind = .multiPoint m) ∧
    (onePointInit p a = .ok o ↔ crossInit p a = .ok o.cross ∧ o.kind = .multiPoint 1) ∧
    (twoPointInit p a = .ok o ↔ crossInit p a = .ok o.cross ∧ o.kind = .multiPoint 2) ∧
    (∀ eta, sbxInit p a eta = .ok o ↔ crossInit p a = .ok o.cross ∧ o.kind = .sbx eta) ∧
    (cutAndSpliceInit p a = .ok o ↔ crossInit p a = .ok o.cross ∧ o.kind = .cutAndSplice) ∧
    (∀ c x m, crossInit p a = .ok c → Truncates x m → m < 1 → multiPointInit p a (some x) = .error .valueError) := by
  have huniq : ∀ x n, Truncates x n → n = toInt x := by
    intro x n h
    have h' := toInt_spec x
    by_cases hx : 0 ≤ x
    · have h1 := h.1 hx; have h2 := h'.1 hx
      have e1 : (n : ℚ) < (toInt x : ℚ) + 1 := by linarith
      have e2 : (toInt x : ℚ) < n + 1 := by linarith
      have e1 : n < toInt x + 1 := by exact_mod_cast e1
      have e2 : toInt x < n + 1 := by exact_mod_cast e2
      omega
    · have h1 := h.2 (not_le.mp hx); have h2 := h'.2 (not_le.mp hx)
      have e1 : (n : ℚ) < (toInt x : ℚ) + 1 := by linarith
      have e2 : (toInt x : ℚ) < n + 1 := by linarith
      have e1 : n < toInt x + 1 := by exact_mod_cast e1
      have e2 : toInt x < n + 1 := by exact_mod_cast e2
      omega
  have hm : ∀ x, multiPointInit p a (some x) = .ok o ↔ crossInit p a = .ok o.cross ∧ ∃ m, Truncates x m ∧ 1 ≤ m ∧ o.kind = .multiPoint m := by
    intro x
    obtain ⟨oc, ok⟩ := o
    simp only [multiPointInit, bind, Except.bind]
    cases crossInit p a with
    | error e => simp
    | ok c =>
      simp only
      split
      · rename_i h
        constructor
        · intro h'; cases h'
        · rintro ⟨-, m, h1, h2, -⟩; rw [huniq x m h1] at h2; omega
      · rename_i h
        simp only [Except.ok.injEq, CrossOp.mk.injEq]
        constructor
        · rintro ⟨rfl, rfl⟩; exact ⟨rfl, toInt x, toInt_spec x, by omega, rfl⟩
        · rintro ⟨rfl, m, h1, h2, rfl⟩; rw [huniq x m h1]; exact ⟨rfl, rfl⟩
  have e1 : ∀ n : ℤ, 1 ≤ n → ∀ m, Truncates (n : ℚ) m ↔ m = n := by
    intro n hn m
    constructor
    · intro h
      rw [huniq _ _ h, toInt, if_pos (by exact_mod_cast (by omega : 0 ≤ n)), Int.floor_intCast]
    · rintro rfl
      have := toInt_spec (m : ℚ)
      rwa [toInt, if_pos (by exact_mod_cast (by omega : 0 ≤ m)), Int.floor_intCast] at this
  refine ⟨hm, ?_, ?_, ?_, ?_, ?_⟩
  · rw [onePointInit, hm]
    have := e1 1 (by omega)
    simp only [Int.cast_one] at this
    simp [this]
  · rw [twoPointInit, hm]
    have := e1 2 (by omega)
    simp only [Int.cast_ofNat] at this
    simp [this]
  · intro eta
    obtain ⟨oc, ok⟩ := o
    simp only [sbxInit, bind, Except.bind]
    cases crossInit p a <;> simp [eq_comm]
  · obtain ⟨oc, ok⟩ := o
    simp only [cutAndSpliceInit, bind, Except.bind]
    cases crossInit p a <;> simp [eq_comm]
  · intro c x m hc hx hlt
    rw [huniq x m hx] at hlt
    simp [multiPointInit, bind, Except.bind, hc, hlt]

/-- **C128, violated.** A MultiPointCrossOver with the default number of points cannot be made: what the cross-over itself accepts ends in a TypeError. -/
theorem C128_violated_default_points (p : Option Prob) (a : CrossArgs) :
    (∀ o, multiPointInit p a none ≠ .ok o) ∧ (∀ c, crossInit p a = .ok c → multiPointInit p a none = .error .typeError) := by
  simp only [multiPointInit, bind, Except.bind]
  cases crossInit p a <;> simp

/-! ### Calls -/

/-- **C128.** A cross-over on a non-empty batch succeeds exactly if its tournaments have contestants, and the number of children it is to have exists (it is even, not negative), except that a multi-point cross-over needs at least
one pair, a one-point cross-over more than one gene, and a simulated binary cross-over an `eta` other than -1. It then makes this number of children. -/
theorem C128_children (o : CrossOp) (hb : o.cross.numChildren = none ∨ o.cross.rate = none) (len m : ℕ) :
    call o len = .ok m ↔ 1 ≤ o.cross.tournament ∧ Count len o.cross.numChildren o.cross.rate m ∧
      (∀ k, o.kind = .multiPoint k → m ≠ 0 ∧ (k = 1 → o.cross.base.problem.length ≠ 1)) ∧ (∀ eta, o.kind = .sbx eta → eta ≠ -1) := by
  obtain ⟨⟨base, objIndex, t, nc, rate⟩, kind⟩ := o
  simp only at hb
  -- the number of tournaments
  have hnt : ∀ m : ℕ, (Count len nc rate m) ↔ ∃ n, numTournaments len nc rate = .ok n ∧ 0 ≤ n ∧ n.toNat = m ∧ Even m := by
    intro m
    cases nc with
    | some c =>
      have hr : rate = none := by simpa using hb
      subst hr
      simp only [Count, numTournaments, Option.some.injEq, forall_eq', reduceCtorEq, false_implies, implies_true, and_true]
      constructor
      · rintro ⟨h1, h2⟩
        refine ⟨c, ?_, by omega, by omega, h1⟩
        rw [if_neg]
        rw [Nat.even_iff] at h1
        omega
      · rintro ⟨n, h1, h2, h3, h4⟩
        split at h1
        · cases h1
        · cases h1; exact ⟨h4, by omega⟩
    | none =>
      cases rate with
      | none =>
        simp only [Count, numTournaments, reduceCtorEq, false_implies, implies_true, and_true, true_and, forall_const, Except.ok.injEq]
        constructor
        · rintro ⟨h1, h2, h3⟩
          rw [Nat.even_iff] at h1
          refine ⟨m, ?_, by omega, by omega, by rw [Nat.even_iff]; omega⟩
          split <;> omega
        · rintro ⟨n, h1, h2, h3, h4⟩
          refine ⟨h4, ?_⟩
          split at h1 <;> omega
      | some r =>
        simp only [Count, numTournaments, reduceCtorEq, false_implies, implies_true, and_true, true_and, Option.some.injEq, forall_eq', Except.ok.injEq]
        generalize (len : ℚ) * r = f
        have h1 := Int.floor_le f
        have h2 := Int.lt_floor_add_one f
        have h3 := Int.le_ceil f
        have h4 := Int.ceil_lt_add_one f
        have key : ∀ n : ℤ, n % 2 = 0 → ((n : ℚ) ≤ f + 1 ∧ f - 1 < n ↔ (if ⌈f⌉ = ⌊f⌋ then (if ⌈f⌉ % 2 ≠ 0 then ⌈f⌉ + 1 else ⌈f⌉) else if ⌈f⌉ % 2 = 0 then ⌈f⌉ else ⌊f⌋) = n) := by
          intro n hn
          by_cases he : ⌈f⌉ = ⌊f⌋
          · have hf : f = ⌊f⌋ := le_antisymm (by rw [← he]; exact h3) h1
            rw [if_pos he]
            generalize ⌊f⌋ = z at *
            subst hf
            rw [he]
            have e : (((n : ℚ) ≤ z + 1) ∧ ((z : ℚ) - 1 < n)) ↔ (n ≤ z + 1 ∧ z - 1 < n) := by
              constructor
              · rintro ⟨a, b⟩; exact ⟨by exact_mod_cast a, by exact_mod_cast b⟩
              · rintro ⟨a, b⟩; exact ⟨by exact_mod_cast a, by exact_mod_cast b⟩
            rw [e]
            split <;> omega
          · rw [if_neg he]
            have hlt : (⌊f⌋ : ℚ) < f := lt_of_le_of_ne h1 (fun h => he (by rw [← h]; simp))
            have hc : ⌈f⌉ = ⌊f⌋ + 1 := by
              apply le_antisymm
              · exact Int.ceil_le_floor_add_one f
              · by_contra hh
                push Not at hh
                have : ⌈f⌉ ≤ ⌊f⌋ := by omega
                exact he (le_antisymm this (Int.floor_le_ceil f))
            rw [hc] at h3 ⊢
            generalize ⌊f⌋ = z at *
            push_cast at h3
            constructor
            · rintro ⟨a, b⟩
              have a' : (n : ℚ) < z + 2 := by linarith
              have b' : (z : ℚ) - 1 < n := by linarith
              have a' : n < z + 2 := by exact_mod_cast a'
              have b' : z - 1 < n := by exact_mod_cast b'
              split <;> omega
            · intro h
              split at h
              · subst h; push_cast; constructor <;> linarith
              · subst h; constructor <;> linarith
        constructor
        · rintro ⟨he, ha, hb⟩
          refine ⟨m, ?_, by omega, by omega, he⟩
          rw [Nat.even_iff] at he
          exact (key m (by omega)).mp ⟨by exact_mod_cast ha, by exact_mod_cast hb⟩
        · rintro ⟨n, hn, h0, rfl, he⟩
          rw [Nat.even_iff] at he
          have := (key n (by omega)).mpr hn
          have e : ((n.toNat : ℕ) : ℚ) = (n : ℚ) := by
            have : ((n.toNat : ℕ) : ℤ) = n := Int.toNat_of_nonneg h0
            exact_mod_cast congrArg (fun z : ℤ => (z : ℚ)) this
          rw [e]
          exact ⟨by rw [Nat.even_iff]; omega, this⟩
  rw [hnt]
  have heven : ∀ n, numTournaments len nc rate = .ok n → n % 2 = 0 := by
    intro n hn
    cases nc with
    | some c =>
      have hr : rate = none := by simpa using hb
      subst hr
      simp only [numTournaments] at hn
      split at hn
      · cases hn
      · cases hn; omega
    | none =>
      cases rate with
      | none => simp only [numTournaments, Except.ok.injEq] at hn; split at hn <;> omega
      | some r =>
        simp only [numTournaments, Except.ok.injEq] at hn
        split at hn
        · split at hn <;> omega
        · split at hn
          · omega
          · rename_i h1 h2
            have := Int.ceil_le_floor_add_one ((len : ℚ) * r)
            have := Int.floor_le_ceil ((len : ℚ) * r)
            omega
  simp only [call, pairs, bind, Except.bind]
  cases hn : numTournaments len nc rate with
  | error e => simp
  | ok n =>
    have hev := heven n hn
    simp only [Except.ok.injEq, exists_eq_left']
    by_cases h1 : n < 0 ∨ t < 0
    · rw [if_pos h1]
      constructor
      · intro h; cases h
      · rintro ⟨h2, ⟨h3, -⟩, -⟩; omega
    · rw [if_neg h1]
      by_cases h2 : t = 0
      · rw [if_pos h2]
        constructor
        · intro h; cases h
        · rintro ⟨h3, -⟩; omega
      · rw [if_neg h2]
        simp only
        have hm : ∀ m : ℕ, (0 ≤ n ∧ n.toNat = m ∧ Even m) ↔ 2 * (n / 2).toNat = m := by
          intro m
          rw [Nat.even_iff]
          omega
        rw [hm]
        have ht : 1 ≤ t := by omega
        cases kind with
        | multiPoint k =>
          simp only [children, CrossKind.multiPoint.injEq, forall_eq', reduceCtorEq, false_implies, implies_true, and_true, ht, true_and]
          split
          · simp only [reduceCtorEq, false_iff]; rintro ⟨h, h3, -⟩; omega
          · split
            · rename_i h; simp only [reduceCtorEq, false_iff]; rintro ⟨-, -, h3⟩; exact h3 h.1 h.2
            · rename_i h3 h4
              simp only [Except.ok.injEq]
              constructor
              · intro h; exact ⟨h, by omega, fun a b => h4 ⟨a, b⟩⟩
              · exact fun h => h.1
        | sbx eta =>
          simp only [children, CrossKind.sbx.injEq, forall_eq', reduceCtorEq, false_implies, implies_true, true_and, ht]
          split
          · rename_i h; simp only [reduceCtorEq, false_iff]; rintro ⟨-, h3⟩; exact h3 (by linarith)
          · rename_i h
            simp only [Except.ok.injEq]
            exact ⟨fun h' => ⟨h', fun h3 => h (by rw [h3]; norm_num)⟩, fun h => h.1⟩
        | cutAndSplice => simp [children, ht]

/-- **C128.** There is at most one such number. -/
theorem C128_count_unique (len : ℕ) (nc : Option ℤ) (rate : Option ℚ) (m m' : ℕ) (h : Count len nc rate m) (h' : Count len nc rate m') : m = m' := by
  obtain ⟨h1, h2, h3, h4⟩ := h
  obtain ⟨h1', h2', h3', h4'⟩ := h'
  rw [Nat.even_iff] at h1 h1'
  cases nc with
  | some c => have := h2 c rfl; have := h2' c rfl; omega
  | none =>
    cases rate with
    | none => have := h3 rfl rfl; have := h3' rfl rfl; omega
    | some r =>
      have a := h4 r rfl; have b := h4' r rfl
      have e1 : (m : ℚ) < m' + 2 := by linarith
      have e2 : (m' : ℚ) < m + 2 := by linarith
      have e1 : m < m' + 2 := by exact_mod_cast e1
      have e2 : m' < m + 2 := by exact_mod_cast e2
      omega

/-- **C128, violated.** These are accepted at construction, although no call can succeed: an odd or negative number of children, tournaments without contestants, and one cutting point for solutions with one gene. -/
theorem C128_violated_accepted (q : Prob) :
    (∃ o, onePointInit (some q) ⟨2, none, some 3, none⟩ = .ok o ∧ ∀ len, call o len = .error .valueError) ∧
    (∃ o, onePointInit (some q) ⟨2, none, some (-2), none⟩ = .ok o ∧ ∀ len, call o len = .error .runtimeError) ∧
    (∃ o, onePointInit (some q) ⟨0, none, none, none⟩ = .ok o ∧ ∀ len, call o len = .error .indexError) ∧
    (q.length = 1 → ∃ o, onePointInit (some q) ⟨2, none, none, none⟩ = .ok o ∧ ∀ len, 1 ≤ len → call o len = .error .runtimeError) := by
  have t1 : toInt 1 = 1 := by decide +kernel
  have t2 : toInt 2 = 2 := by decide +kernel
  have t3 : toInt 3 = 3 := by decide +kernel
  have t0 : toInt 0 = 0 := by decide +kernel
  have tm : toInt (-2) = -2 := by decide +kernel
  refine ⟨⟨⟨⟨⟨q, q.lb, q.ub⟩, none, 2, some 3, none⟩, .multiPoint 1⟩, ?_, ?_⟩, ⟨⟨⟨⟨q, q.lb, q.ub⟩, none, 2, some (-2), none⟩, .multiPoint 1⟩, ?_, ?_⟩,
    ⟨⟨⟨⟨q, q.lb, q.ub⟩, none, 0, none, none⟩, .multiPoint 1⟩, ?_, ?_⟩, fun hl => ⟨⟨⟨⟨q, q.lb, q.ub⟩, none, 2, none, none⟩, .multiPoint 1⟩, ?_, ?_⟩⟩
  · simp [onePointInit, multiPointInit, crossInit, operatorInit, bind, Except.bind, optObjIndex, t1, t2, t3]
  · intro len; simp [call, pairs, numTournaments, bind, Except.bind]
  · simp [onePointInit, multiPointInit, crossInit, operatorInit, bind, Except.bind, optObjIndex, t1, t2, tm]
  · intro len; simp [call, pairs, numTournaments, bind, Except.bind]
  · simp [onePointInit, multiPointInit, crossInit, operatorInit, bind, Except.bind, optObjIndex, t1, t0]
  · intro len
    simp only [call, pairs, numTournaments, bind, Except.bind]
    rw [if_neg (by split <;> omega), if_pos trivial]
  · simp [onePointInit, multiPointInit, crossInit, operatorInit, bind, Except.bind, optObjIndex, t1, t2]
  · intro len hlen
    simp only [call, pairs, numTournaments, bind, Except.bind]
    rw [if_neg (by split <;> omega), if_neg (by omega)]
    simp only [children, hl]
    rw [if_neg (by split <;> omega)]
    rfl

/-- **C128, violated.** With a rate whose product with the batch size is below one, a multi-point cross-over raises an IndexError, instead of making no children. -/
theorem C128_violated_small_rate (o : CrossOp) (k : ℤ) (hk : o.kind = .multiPoint k) (ht : 1 ≤ o.cross.tournament) (hn : o.cross.numChildren = none) (r : ℚ) (hr : o.cross.rate = some r) (h0 : 0 ≤ r)
    (len : ℕ) (hlt : len * r < 1) : call o len = .error .indexError := by
  have hnt : numTournaments len none (some r) = .ok 0 := by
    have hf : ⌊(len : ℚ) * r⌋ = 0 := Int.floor_eq_zero_iff.mpr ⟨by positivity, hlt⟩
    simp only [numTournaments, hf]
    have hc1 : 0 ≤ ⌈(len : ℚ) * r⌉ := Int.ceil_nonneg (by positivity)
    have hc2 : ⌈(len : ℚ) * r⌉ ≤ 1 := by rw [Int.ceil_le]; push_cast; linarith
    congr 1
    split
    · split <;> omega
    · split <;> omega
  simp only [call, pairs, hn, hr, hnt, bind, Except.bind]
  rw [if_neg (by omega), if_neg (by omega)]
  simp [hk, children]

/-! ### Mutations and permutations -/

/-- **C128.** The Gaussian mutation mutates every gene unless a probability is given. It accepts every problem, with any dtype. -/
theorem C128_gaussian (p : Option Prob) (stdev : ℚ) (prob : Option ℚ) (g : Gaussian) :
    (gaussianInit p stdev prob = .ok g ↔ ∃ q, p = some q ∧ g.base = ⟨q, q.lb, q.ub⟩ ∧ g.stdev = stdev ∧ (prob = none ∧ g.prob = 1 ∨ prob = some g.prob)) ∧
    gaussianInit none stdev prob = .error .typeError := by
  refine ⟨?_, rfl⟩
  obtain ⟨b, pr, s⟩ := g
  cases p with
  | none => simp [gaussianInit, operatorInit, bind, Except.bind]
  | some q => cases prob <;> simp [gaussianInit, operatorInit, bind, Except.bind, eq_comm, and_comm]

/-- **C128.** The polynomial mutation requires floating-point decision values and both bounds, where no lower bound exceeds the upper one; `eta` is 20 by default. Everything else is a ValueError. -/
theorem C128_polynomial (q : Prob) (eta prob : Option ℚ) :
    (∀ g, polynomialInit (some q) eta prob = .ok g ↔
      q.kind = .float ∧ (∃ lb ub, q.lb = some lb ∧ q.ub = some ub ∧ ∀ (i : ℕ) (a b : ℚ), lb[i]? = some a → ub[i]? = some b → a ≤ b) ∧
      g.base = ⟨q, q.lb, q.ub⟩ ∧ g.prob = prob ∧ (eta = none ∧ g.eta = 20 ∨ eta = some g.eta)) ∧
    ((∃ g, polynomialInit (some q) eta prob = .ok g) ∨ polynomialInit (some q) eta prob = .error .valueError) ∧
    polynomialInit none eta prob = .error .typeError := by
  have hany : ∀ lb ub : List ℚ, someGreater lb ub = false ↔ ∀ (i : ℕ) (a b : ℚ), lb[i]? = some a → ub[i]? = some b → a ≤ b := by
    intro lb
    induction lb with
    | nil => intro ub; simp [someGreater]
    | cons x lb ih =>
      intro ub
      cases ub with
      | nil => simp [someGreater]
      | cons y ub =>
        have : someGreater (x :: lb) (y :: ub) = (decide (x > y) || someGreater lb ub) := by simp [someGreater]
        rw [this, Bool.or_eq_false_iff, ih]
        constructor
        · rintro ⟨h1, h2⟩ i a b ha hb
          cases i with
          | zero => simp at ha hb; subst ha hb; simpa using h1
          | succ i => exact h2 i a b (by simpa using ha) (by simpa using hb)
        · intro h
          exact ⟨by simpa using h 0 x y rfl rfl, fun i a b ha hb => h (i + 1) a b (by simpa using ha) (by simpa using hb)⟩
  refine ⟨?_, ?_, rfl⟩
  · intro g
    obtain ⟨b, pr, e⟩ := g
    simp only [polynomialInit, operatorInit, bind, Except.bind]
    by_cases hk : q.kind = .float
    · rw [if_neg (by simp [hk])]
      cases hl : q.lb with
      | none => simp
      | some lb =>
        cases hu : q.ub with
        | none => simp
        | some ub =>
          simp only [hk, true_and, Option.some.injEq, exists_and_left, exists_eq_left']
          cases hs : someGreater lb ub with
          | true =>
            simp only [if_true, reduceCtorEq, false_iff]
            rintro ⟨h, -⟩
            rw [(hany lb ub).mpr h] at hs; cases hs
          | false =>
            simp only [Bool.false_eq_true, if_false, Except.ok.injEq, Polynomial.mk.injEq]
            have := (hany lb ub).mp hs
            have e : (∀ (i : ℕ) (a b : ℚ), lb[i]? = some a → ub[i]? = some b → a ≤ b) ↔ True := ⟨fun _ => trivial, fun _ => this⟩
            rw [e, true_and]
            cases eta <;> simp [eq_comm]
    · rw [if_pos hk]; simp [hk]
  · simp only [polynomialInit, operatorInit, bind, Except.bind]
    split
    · exact Or.inr rfl
    · split
      · split
        · exact Or.inr rfl
        · exact Or.inl ⟨_, rfl⟩
      · exact Or.inr rfl

/-- **C128.** The permutation is according to an objective (the only one by default), unless all are to be permuted, when no objective may be given. -/
theorem C128_cosyne (q : Prob) (i : Option ℤ) (c : Cosyne) :
    (cosyneInit (some q) i false = .ok c ↔ c.base = ⟨q, q.lb, q.ub⟩ ∧ c.permuteAll = false ∧ ∃ j, c.objIndex = some j ∧ Means q.numObjs i j) ∧
    (cosyneInit (some q) i true = .ok c ↔ i = none ∧ c.base = ⟨q, q.lb, q.ub⟩ ∧ c.permuteAll = true ∧ c.objIndex = none) ∧
    ((∀ j, ¬ Means q.numObjs i j) → cosyneInit (some q) i false = .error (if i = none then .valueError else .indexError)) ∧
    (i ≠ none → cosyneInit (some q) i true = .error .valueError) := by
  obtain ⟨b, o, a⟩ := c
  refine ⟨?_, ?_, ?_, ?_⟩
  · simp only [cosyneInit, Bool.false_eq_true, if_false]
    cases hn : normalizeObjIndex q.numObjs i with
    | error e =>
      simp only [reduceCtorEq, false_iff]
      rintro ⟨-, -, j, -, h⟩
      rw [(normalize_spec _ _ _).mpr h] at hn; cases hn
    | ok j =>
      have hj := (normalize_spec _ _ _).mp hn
      simp only [operatorInit, Except.map, Except.ok.injEq, Cosyne.mk.injEq]
      constructor
      · rintro ⟨rfl, rfl, rfl⟩; exact ⟨rfl, rfl, j, rfl, hj⟩
      · rintro ⟨rfl, rfl, j', rfl, h⟩
        rw [(normalize_spec _ _ _).mpr h] at hn; cases hn
        exact ⟨rfl, rfl, rfl⟩
  · cases i <;> simp [cosyneInit, operatorInit, Except.map, eq_comm, and_comm]
  · intro h
    have := normalize_error q.numObjs i h
    simp [cosyneInit, this]
  · intro h
    obtain ⟨x, hx⟩ := Option.ne_none_iff_exists'.mp h
    simp [cosyneInit, hx]

/-- **C128.** Operators on one objective: the objective exists, and is the only one by default. In-place operators refuse what is not a batch. -/
theorem C128_single (q : Prob) (i : Option ℤ) (b : Base) (j : ℕ) {β : Type} (work : β → Except PyErr Unit) (x : β) :
    (singleObjInit (some q) i = .ok (b, j) ↔ b = ⟨q, q.lb, q.ub⟩ ∧ Means q.numObjs i j) ∧ singleObjInit none i = .error .typeError ∧
    operatorCall work none = .error .typeError ∧ operatorCall work (some x) = work x := by
  refine ⟨?_, rfl, rfl, rfl⟩
  simp only [singleObjInit, operatorInit, bind, Except.bind]
  cases hn : normalizeObjIndex q.numObjs i with
  | error e =>
    simp only [reduceCtorEq, false_iff]
    rintro ⟨-, h⟩
    rw [(normalize_spec _ _ _).mpr h] at hn; cases hn
  | ok k =>
    have hk := (normalize_spec _ _ _).mp hn
    simp only [Except.ok.injEq, Prod.mk.injEq]
    constructor
    · rintro ⟨rfl, rfl⟩; exact ⟨rfl, hk⟩
    · rintro ⟨rfl, h⟩
      rw [(normalize_spec _ _ _).mpr h] at hn; cases hn
      exact ⟨rfl, rfl⟩

/-- **C128, violated.** The Gaussian mutation accepts problems whose decision values are not real numbers. -/
theorem C128_violated_gaussian (stdev : ℚ) : ∃ q g, q.kind = .object ∧ gaussianInit (some q) stdev none = .ok g ∧ g.base.problem = q := ⟨⟨1, .object, none, none, 0⟩, _, rfl, rfl, rfl⟩

/-- **C128, violated.** Something which is not a problem is a TypeError for all operators but the permutation. -/
theorem C128_violated_cosyne (i : Option ℤ) : cosyneInit none i false = .error .attributeError ∧ cosyneInit none none true = .error .typeError := ⟨rfl, rfl⟩

/-! Examples. -/
example : call ⟨⟨⟨⟨1, .float, none, none, 4⟩, none, none⟩, none, 2, none, none⟩, .multiPoint 2⟩ 5 = .ok 6 ∧
    call ⟨⟨⟨⟨1, .float, none, none, 4⟩, none, none⟩, none, 2, none, some (1/2)⟩, .sbx 8⟩ 5 = .ok 2 ∧
    call ⟨⟨⟨⟨1, .float, none, none, 4⟩, none, none⟩, none, 2, some 8, none⟩, .cutAndSplice⟩ 5 = .ok 8 := by decide +kernel
example : Count 5 none (some (1/2)) 2 := ⟨by decide, by simp, by simp, fun r h => by simp only [Option.some.injEq] at h; subst h; norm_num⟩
example : Means 3 (some (-1)) 2 ∧ Means 1 none 0 ∧ ¬ Means 2 none 0 ∧ ∀ j, ¬ Means 3 (some 3) j := by
  refine ⟨by simp [Means], by simp [Means], by simp [Means], ?_⟩
  intro j h
  simp only [Means] at h
  omega
example : ∃ g, polynomialInit (some ⟨1, .float, some [0, 0], some [1, 0], 2⟩) none none = .ok g := ⟨_, rfl⟩

end EvoTorch.OperatorConfig
