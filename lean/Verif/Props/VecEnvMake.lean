import Verif.Model.VecEnvMake
import Verif.Props.Hook
/-!
C130: how vectorized environments are made: their spaces, and what is made from a name.
-/
namespace EvoTorch.VecEnvMake
open EvoTorch
open EvoTorch.Hook (Dict dictGet dictSet dictUpdate KeysNodup dictGet_update dictGet_set dictGet_reverse)

section
variable {K : Type}

/-! ### Specification -/

/-- The bounds of a box fill its shape. -/
def BoxSpace.WF (b : BoxSpace K) : Prop := b.low.length = b.shape.prod ∧ b.high.length = b.shape.prod

/-- A space that sub-environments may have for actions: a box with at least one dimension, or choices `0, ..., n - 1`. -/
inductive Usual : Space K → Prop where
  | box (b : BoxSpace K) (hwf : b.WF) (hne : b.shape ≠ []) : Usual (.box b)
  | discrete (n : Nat) : Usual (.discrete n 0)

/-- The shape of the vectors that a policy produces for an action space. -/
def policyShape : Space K → List Nat
  | .box b => b.shape
  | .discrete n _ => [n]
  | _ => []

/-! ### Helpers -/

theorem take_flatten_replicate (n m : Nat) (l : List K) (hn : n ≠ 0) (h : l.length = m) : ((List.replicate n l).flatten).take m = l := by
  cases n with
  | zero => exact absurd rfl hn
  | succ n => simp [List.replicate_succ, ← h]

theorem dedup_replicate (n m : Nat) (hn : n ≠ 0) : (List.replicate n m).dedup = [m] := by
  induction n with
  | zero => exact absurd rfl hn
  | succ n ih =>
    cases n with
    | zero => simp
    | succ n =>
      rw [List.replicate_succ, List.dedup_cons_of_mem (by simp)]
      exact ih (by simp)

/-- Spaces of sub-environments survive batching and unbatching, for every number of sub-environments. -/
theorem C130_round_trip (s : Space K) (h : Usual s) (n : Nat) (hn : n ≠ 0) : ∃ b, batchSpace s n = .ok b ∧ unbatchSpace b = .ok s := by
  cases h with
  | box b hwf hne =>
    refine ⟨_, rfl, ?_⟩
    have hl : ¬ (n :: b.shape).length ≤ 1 := by
      have := List.length_pos_iff.2 hne
      simp only [List.length_cons]; omega
    simp only [unbatchSpace, if_neg hl, List.headD_cons, List.tail_cons]
    rw [take_flatten_replicate n _ _ hn hwf.1, take_flatten_replicate n _ _ hn hwf.2]
    exact if_neg hn
  | discrete m =>
    refine ⟨_, rfl, ?_⟩
    have hr : (List.replicate n m).headD 0 = m := by
      cases n with
      | zero => exact absurd rfl hn
      | succ n => rfl
    simp only [unbatchSpace, dedup_replicate n m hn, hr, List.length_singleton, ne_eq, not_true_eq_false, if_false]

example : Usual (Space.box (K := Nat) ⟨[2], [0, 0], [5, 7]⟩) := .box _ ⟨rfl, rfl⟩ (by simp)

/-- A batched space has one row per sub-environment, each with the bounds of the single space. -/
theorem C130_batched_rows (b : BoxSpace K) (hwf : b.WF) (n : Nat) :
    ∃ lows highs, batchSpace (.box b) n = .ok (.box ⟨n :: b.shape, lows, highs⟩) ∧ lows.length = n * b.shape.prod ∧ highs.length = n * b.shape.prod ∧
      ∀ i j, i < n → j < b.shape.prod → lows[i * b.shape.prod + j]? = b.low[j]? ∧ highs[i * b.shape.prod + j]? = b.high[j]? := by
  have key : ∀ (l : List K), l.length = b.shape.prod → ∀ n i j, i < n → j < b.shape.prod →
      ((List.replicate n l).flatten)[i * b.shape.prod + j]? = l[j]? := by
    intro l hl n
    induction n with
    | zero => intro i j hi; omega
    | succ n ih =>
      intro i j hi hj
      rw [List.replicate_succ, List.flatten_cons]
      cases i with
      | zero => rw [List.getElem?_append_left (by omega)]; simp
      | succ i =>
        rw [List.getElem?_append_right (by rw [hl, Nat.succ_mul]; omega)]
        have : (i + 1) * b.shape.prod + j - l.length = i * b.shape.prod + j := by rw [hl, Nat.succ_mul]; omega
        rw [this, ih i j (by omega) hj]
  refine ⟨_, _, rfl, ?_, ?_, ?_⟩
  · simp [hwf.1]
  · simp [hwf.2]
  · intro i j hi hj
    exact ⟨key b.low hwf.1 n i j hi hj, key b.high hwf.2 n i j hi hj⟩

example : (⟨[2], [0, 1], [5, 7]⟩ : BoxSpace Nat).WF := ⟨rfl, rfl⟩

/-- A discrete space that does not begin at 0 comes back as one that does: the wrapper advertises actions that the sub-environment does not have. -/
theorem C130_violated_start (n : Nat) (start : Int) (num : Nat) (hnum : num ≠ 0) (hs : start ≠ 0) :
    ∃ b, batchSpace (.discrete n start : Space K) num = .ok b ∧ unbatchSpace b = .ok (.discrete n 0) ∧ (.discrete n 0 : Space K) ≠ .discrete n start := by
  obtain ⟨b, h1, h2⟩ := C130_round_trip (.discrete n 0 : Space K) (.discrete n) num hnum
  refine ⟨b, h1, h2, ?_⟩
  intro hc
  injection hc with _ hc
  exact hs hc.symm

/-- Single scalars as observations or actions (a box of shape `()`) are accepted when batching and refused when wrapping. -/
theorem C130_violated_scalar (ninf pinf : K) (d2c clip : Bool) (lo hi : K) (act : Space K) (hact : Usual act) (n : Nat) (hn : n ≠ 0) :
    ∃ e, syncVectorEnv n (.box ⟨[], [lo], [hi]⟩) act = .ok e ∧ wrap ninf pinf d2c clip e = .error .valueError := by
  obtain ⟨a, ha, _⟩ := C130_round_trip act hact n hn
  have hsup : mustBeSupported act = .ok () := by cases hact <;> rfl
  have hb : batchSpace (.box ⟨[], [lo], [hi]⟩) n = .ok (.box ⟨[n], (List.replicate n [lo]).flatten, (List.replicate n [hi]).flatten⟩) := rfl
  refine ⟨⟨.box ⟨[n], (List.replicate n [lo]).flatten, (List.replicate n [hi]).flatten⟩, a, some n⟩, ?_, ?_⟩
  · simp [syncVectorEnv, hn, isBox, hsup, Except.bind, baseVectorEnv, ha, hb]
  · simp [wrap, singleSpaces, unbatchSpace, Except.bind]

/-- Boxes and discrete spaces. -/
def Plain (s : Space K) : Prop := (∃ b, s = .box b) ∨ ∃ n st, s = .discrete n st

/-- An environment that is not vectorized can be wrapped exactly if both of its spaces are boxes or discrete spaces; otherwise it is refused with a `TypeError`. -/
theorem C130_wrapper_refuses (ninf pinf : K) (d2c clip : Bool) (obs act : Space K) :
    ((∃ w, wrap ninf pinf d2c clip ⟨obs, act, none⟩ = .ok w) ↔ Plain obs ∧ Plain act) ∧
    (¬ (Plain obs ∧ Plain act) → wrap ninf pinf d2c clip ⟨obs, act, none⟩ = .error .typeError) := by
  cases obs <;> cases act <;> simp [wrap, singleSpaces, mustBeSupported, Plain, Except.bind]

/-- A discrete observation is fine for the wrapper; a `MultiDiscrete` one, or any other one, is not. -/
example (ninf pinf : K) : (∃ w, wrap ninf pinf true true ⟨.discrete 4 0, .discrete 2 0, none⟩ = .ok w)
    ∧ wrap ninf pinf true true ⟨.multi [2] [3, 3], .discrete 2 0, none⟩ = .error .typeError :=
  ⟨(C130_wrapper_refuses ninf pinf true true _ _).1.2 ⟨Or.inr ⟨4, 0, rfl⟩, Or.inr ⟨2, 0, rfl⟩⟩,
    (C130_wrapper_refuses ninf pinf true true _ _).2 (by simp [Plain])⟩

/-! ### Wrapped environments -/

theorem sync_ok (ob : BoxSpace K) (act : Space K) (hact : Usual act) (n : Nat) (hn : n ≠ 0) :
    ∃ o a, batchSpace (.box ob) n = .ok o ∧ batchSpace act n = .ok a ∧ syncVectorEnv n (.box ob) act = .ok ⟨o, a, some n⟩ := by
  obtain ⟨a, ha, _⟩ := C130_round_trip act hact n hn
  have hsup : mustBeSupported act = .ok () := by cases hact <;> rfl
  have ho : batchSpace (.box ob) n = .ok (.box ⟨n :: ob.shape, (List.replicate n ob.low).flatten, (List.replicate n ob.high).flatten⟩) := rfl
  exact ⟨_, a, ho, ha, by simp [syncVectorEnv, hn, isBox, hsup, Except.bind, baseVectorEnv, ho, ha]⟩

/-- The environment of a `VecGymNE` made from copies of one environment: its single observation space is the one of the environment; it takes vectors of the shape of the box, with the bounds of the
box used for clipping, or one score per choice, unbounded and not clipped; and it has as many sub-environments as asked for. -/
theorem C130_wrapped (ninf pinf : K) (ob : BoxSpace K) (hob : ob.WF) (hne : ob.shape ≠ []) (act : Space K) (hact : Usual act) (n : Nat) (hn : n ≠ 0) :
    ∃ w a, realEnv ninf pinf n (.box ob) act = .ok w ∧ w.numEnvs = some n ∧ w.single = some (.box ob, a) ∧
      w.obs.shape = n :: ob.shape ∧ w.act.shape = n :: policyShape act ∧
      (match act with
       | .box b => a = .box b ∧ w.clip = some (b.low, b.high) ∧ w.discrete = false
       | .discrete m _ => a = .box ⟨[m], List.replicate m ninf, List.replicate m pinf⟩ ∧ w.clip = none ∧ w.discrete = true
       | _ => False) := by
  obtain ⟨o, a, ho, ha, hs⟩ := sync_ok ob act hact n hn
  obtain ⟨o', ho', huo⟩ := C130_round_trip (.box ob) (.box ob hob hne) n hn
  obtain ⟨a', ha', hua⟩ := C130_round_trip act hact n hn
  rw [ho] at ho'; cases Except.ok.inj ho'
  rw [ha] at ha'; cases Except.ok.inj ha'
  have hso : o.shape = n :: ob.shape := by
    cases Except.ok.inj (ho : Except.ok _ = _)
    rfl
  cases hact with
  | box b hwf hne' =>
    refine ⟨_, .box b, by simp [realEnv, hs, wrap, singleSpaces, huo, hua, mustBeSupported, Except.bind]; rfl, ?_⟩
    cases Except.ok.inj (ha : Except.ok _ = _)
    exact ⟨rfl, rfl, hso, rfl, rfl, rfl, rfl⟩
  | discrete m =>
    refine ⟨_, .box ⟨[m], List.replicate m ninf, List.replicate m pinf⟩, by
      simp [realEnv, hs, wrap, singleSpaces, huo, hua, mustBeSupported, Except.bind]; rfl, ?_⟩
    exact ⟨rfl, by simp [wrapWith, unboundedBox], hso, rfl, rfl, rfl, rfl⟩

example : realEnv (K := Int) (-1000) 1000 2 (.box ⟨[1], [-4], [4]⟩) (.discrete 3 0) =
    .ok ⟨.box ⟨[2, 1], [-4, -4], [4, 4]⟩, .box ⟨[2, 3], List.replicate 6 (-1000), List.replicate 6 1000⟩,
      some (.box ⟨[1], [-4], [4]⟩, .box ⟨[3], [-1000, -1000, -1000], [1000, 1000, 1000]⟩), some 2, true, none⟩ := by decide

/-- The constants that a network description can use (lengths and shapes of observations and actions) are those of the environment in which the network will act, whatever the number of policies. -/
theorem C130_constants (ninf pinf : K) (ob : BoxSpace K) (hob : ob.WF) (hne : ob.shape ≠ []) (act : Space K) (hact : Usual act) (n : Nat) (hn : n ≠ 0) :
    ∃ c w o a, envConstants ninf pinf (.box ob) act = .ok c ∧ realEnv ninf pinf n (.box ob) act = .ok w ∧ w.single = some (o, a) ∧
      c.obsShape = o.shape ∧ c.actShape = a.shape ∧ c.obsShape = ob.shape ∧ c.actShape = policyShape act ∧
      c.obsShape.head? = some c.obsLength ∧ c.actShape.head? = some c.actLength := by
  obtain ⟨w, a, hw, hnum, hsingle, _, _, hact'⟩ := C130_wrapped ninf pinf ob hob hne act hact n hn
  obtain ⟨k, rest, hk⟩ : ∃ k rest, ob.shape = k :: rest := by
    cases h : ob.shape with
    | nil => exact absurd h hne
    | cons k rest => exact ⟨k, rest, rfl⟩
  -- the dummy environment
  obtain ⟨o1, a1, ho1, ha1, hs1⟩ := sync_ok ob act hact 1 (by simp)
  obtain ⟨o', ho', huo⟩ := C130_round_trip (.box ob) (.box ob hob hne) 1 (by simp)
  obtain ⟨a', ha', hua⟩ := C130_round_trip act hact 1 (by simp)
  rw [ho1] at ho'; cases Except.ok.inj ho'
  rw [ha1] at ha'; cases Except.ok.inj ha'
  cases hact with
  | box b hwf hne' =>
    obtain ⟨l, rest', hl⟩ : ∃ l rest', b.shape = l :: rest' := by
      cases h : b.shape with
      | nil => exact absurd h hne'
      | cons l rest' => exact ⟨l, rest', rfl⟩
    obtain ⟨ha, _, _⟩ := hact'
    subst ha
    refine ⟨⟨k, l, ob.shape, b.shape⟩, w, _, _, ?_, hw, hsingle, rfl, rfl, rfl, rfl, by simp [hk], by simp [hl]⟩
    simp [envConstants, dummyEnv, hs1, wrap, singleSpaces, huo, hua, mustBeSupported, Except.bind, wrapWith, Wrapped.env, spacesOf, constantsOf, Space.shape, hk, hl, firstLength]
  | discrete m =>
    obtain ⟨ha, _, _⟩ := hact'
    subst ha
    refine ⟨⟨k, m, ob.shape, [m]⟩, w, _, _, ?_, hw, hsingle, rfl, rfl, rfl, rfl, by simp [hk], by simp⟩
    simp [envConstants, dummyEnv, hs1, wrap, singleSpaces, huo, hua, mustBeSupported, Except.bind, wrapWith, Wrapped.env, spacesOf, constantsOf, Space.shape, hk, firstLength, unboundedBox]

example : envConstants (K := Int) (-1000) 1000 (.box ⟨[2], [-4, -4], [4, 4]⟩) (.discrete 3 0) = .ok ⟨2, 3, [2], [3]⟩ := by decide +kernel

/-- Wrapping a wrapper again with the same options changes none of the spaces. -/
theorem C130_rewrap (ninf pinf : K) (d2c clip : Bool) (ob : BoxSpace K) (hob : ob.WF) (hne : ob.shape ≠ []) (act : Space K) (hact : Usual act) (n : Nat) (hn : n ≠ 0)
    (e : Env K) (he : syncVectorEnv n (.box ob) act = .ok e) :
    ∃ w w', wrap ninf pinf d2c clip e = .ok w ∧ wrap ninf pinf d2c clip w.env = .ok w' ∧ w'.obs = w.obs ∧ w'.act = w.act ∧ w'.single = w.single ∧ w'.numEnvs = w.numEnvs := by
  obtain ⟨o, a, ho, ha, hs⟩ := sync_ok ob act hact n hn
  rw [hs] at he
  cases Except.ok.inj he
  obtain ⟨o', ho', huo⟩ := C130_round_trip (.box ob) (.box ob hob hne) n hn
  obtain ⟨a', ha', hua⟩ := C130_round_trip act hact n hn
  rw [ho] at ho'; cases Except.ok.inj ho'
  rw [ha] at ha'; cases Except.ok.inj ha'
  cases hact with
  | box b hwf hne' =>
    refine ⟨wrapWith ninf pinf d2c clip ⟨o, a, some n⟩ (.box ob) (.box b), wrapWith ninf pinf d2c clip ⟨o, a, some n⟩ (.box ob) (.box b), ?_, ?_, rfl, rfl, rfl, rfl⟩ <;>
      simp [wrap, singleSpaces, huo, hua, mustBeSupported, Except.bind, wrapWith, Wrapped.env]
  | discrete m =>
    cases d2c with
    | false =>
      refine ⟨wrapWith ninf pinf false clip ⟨o, a, some n⟩ (.box ob) (.discrete m 0), wrapWith ninf pinf false clip ⟨o, a, some n⟩ (.box ob) (.discrete m 0), ?_, ?_, rfl, rfl, rfl, rfl⟩ <;>
        simp [wrap, singleSpaces, huo, hua, mustBeSupported, Except.bind, wrapWith, Wrapped.env]
    | true =>
      have hun : unbatchSpace (unboundedBox ninf pinf [n, m]) = .ok (unboundedBox ninf pinf [m]) := by
        have : min m (n * m) = m := Nat.min_eq_left (Nat.le_mul_of_pos_left m (Nat.pos_of_ne_zero hn))
        simp [unbatchSpace, unboundedBox, hn, List.take_replicate, this]
      refine ⟨wrapWith ninf pinf true clip ⟨o, a, some n⟩ (.box ob) (.discrete m 0),
        wrapWith ninf pinf true clip ⟨o, unboundedBox ninf pinf [n, m], some n⟩ (.box ob) (unboundedBox ninf pinf [m]), ?_, ?_, rfl, rfl, rfl, rfl⟩
      · simp [wrap, singleSpaces, huo, hua, mustBeSupported, Except.bind]
      · simp [wrap, singleSpaces, huo, hun, mustBeSupported, Except.bind, wrapWith, Wrapped.env]
        rfl

example : ∃ e, syncVectorEnv (K := Int) 2 (.box ⟨[1], [-4], [4]⟩) (.discrete 3 0) = .ok e := ⟨_, rfl⟩

/-- What is refused: no sub-environment, observations that are not a box, actions that are neither a box nor discrete. -/
theorem C130_refused (obs act : Space K) (n : Nat) :
    syncVectorEnv 0 obs act = .error .valueError ∧
    (n ≠ 0 → (∀ b, obs ≠ .box b) → syncVectorEnv n obs act = .error .typeError) ∧
    (n ≠ 0 → ∀ b, obs = .box b → (∀ b, act ≠ .box b) → (∀ m s, act ≠ .discrete m s) → syncVectorEnv n obs act = .error .typeError) := by
  refine ⟨rfl, ?_, ?_⟩
  · intro hn hb
    cases obs with
    | box b => exact absurd rfl (hb b)
    | _ => simp [syncVectorEnv, hn, isBox]
  · intro hn b hb h1 h2
    subst hb
    cases act with
    | box b => exact absurd rfl (h1 b)
    | discrete m s => exact absurd rfl (h2 m s)
    | _ => simp [syncVectorEnv, hn, isBox, mustBeSupported, Except.bind]
end

/-! ### Names -/

/-- The separator of the registry. -/
def sep : List Char := [':', ':']

theorem splitName_none (name : List Char) : splitName name = none ↔ ¬ sep <:+: name := by
  induction name using splitName.induct with
  | case1 => simp [splitName, sep]
  | case2 a =>
    simp only [splitName, true_iff]
    intro h
    have := h.length_le
    simp [sep] at this
  | case3 a b rest h =>
    simp only [splitName, if_pos h]
    constructor
    · intro h'; cases h'
    · intro h'
      exact absurd ⟨[], rest, by simp [sep, h.1, h.2]⟩ h'
  | case4 a b rest h ih =>
    simp only [splitName, if_neg h, Option.map_eq_none_iff]
    rw [ih, List.infix_cons_iff (a := a)]
    constructor
    · rintro h1 (h2 | h2)
      · obtain ⟨t, ht⟩ := h2
        simp [sep] at ht
        exact h ⟨ht.1.symm, ht.2.1.symm⟩
      · exact h1 h2
    · intro h1 h2
      exact h1 (Or.inr h2)

theorem splitName_some (reg rest : List Char) (h : ¬ sep <:+: reg ++ [':']) : splitName (reg ++ sep ++ rest) = some (reg, rest) := by
  induction reg with
  | nil => simp [splitName, sep]
  | cons c reg ih =>
    have ih' := ih (fun hc => h (by rw [List.cons_append, List.infix_cons_iff]; exact Or.inr hc))
    have hc : ∀ d tl, reg ++ sep ++ rest = d :: tl → ¬ (c = ':' ∧ d = ':') := by
      rintro d tl he ⟨rfl, rfl⟩
      apply h
      cases reg with
      | nil => exact ⟨[], [], by simp [sep]⟩
      | cons x reg =>
        simp at he
        obtain ⟨rfl, _⟩ := he
        exact ⟨[], reg ++ [':'], by simp [sep]⟩
    cases hl : reg ++ sep ++ rest with
    | nil => simp [sep] at hl
    | cons d tl =>
      have : c :: reg ++ sep ++ rest = c :: d :: tl := by rw [← hl]; simp
      rw [this, splitName, if_neg (hc d tl hl), ← hl, ih']
      rfl

/-- Which registry a name belongs to: without a separator it is a gym name; `gym::x` and `brax::x` name `x`, also when `x` contains further separators; every other registry is refused. -/
theorem C130_registry (installed : Bool) (numEnvs : Option Int) (opts : WrapOpts) (gk bk : Option (Dict String Val)) (kwargs : Dict String Val) (name rest reg : List Char) :
    (¬ sep <:+: name → ∀ m, makeVectorEnv installed name numEnvs opts gk bk kwargs = .ok m →
      (∃ kw, m = .gymSingle name kw opts) ∨ ∃ n kw ei eps dev, m = .gymSync n name kw ei eps dev opts) ∧
    (¬ sep <:+: name → makeVectorEnv installed ("gym".toList ++ sep ++ name) numEnvs opts gk bk kwargs = makeVectorEnv installed name numEnvs opts gk bk kwargs) ∧
    (∀ m, makeVectorEnv installed ("gym".toList ++ sep ++ rest) numEnvs opts gk bk kwargs = .ok m →
      (∃ kw, m = .gymSingle rest kw opts) ∨ ∃ n kw ei eps dev, m = .gymSync n rest kw ei eps dev opts) ∧
    (∀ m, makeVectorEnv installed ("brax".toList ++ sep ++ rest) numEnvs opts gk bk kwargs = .ok m → installed = true ∧ ∃ kw, m = .brax rest kw opts) ∧
    (¬ sep <:+: reg ++ [':'] → reg ≠ "gym".toList → reg ≠ "brax".toList → makeVectorEnv installed (reg ++ sep ++ rest) numEnvs opts gk bk kwargs = .error .valueError) := by
  have hgym : ∀ r, splitName ("gym".toList ++ sep ++ r) = some ("gym".toList, r) := fun r => splitName_some _ _ (by decide)
  have hbrax : splitName ("brax".toList ++ sep ++ rest) = some ("brax".toList, rest) := splitName_some _ _ (by decide)
  have hcall : ∀ nm kw m, callWith (makeGymEnv nm numEnvs opts) kw = .ok m →
      (∃ kw, m = .gymSingle nm kw opts) ∨ ∃ n kw ei eps dev, m = .gymSync n nm kw ei eps dev opts := by
    intro nm kw m h
    unfold callWith at h
    split at h
    · cases h
    · unfold makeGymEnv at h
      cases numEnvs with
      | none =>
        simp only at h
        split at h
        · cases h
        · split at h
          · cases h
          · split at h
            · cases h
            · cases h; exact Or.inl ⟨_, rfl⟩
      | some n =>
        simp only at h
        split at h
        · cases h
        · cases he : episodesOf (argOr kw "num_episodes" Val.none) with
          | error e => rw [he] at h; cases h
          | ok eps => rw [he] at h; cases h; exact Or.inr ⟨_, _, _, _, _, rfl⟩
  refine ⟨?_, ?_, ?_, ?_, ?_⟩
  · intro hn m h
    unfold makeVectorEnv at h
    rw [(splitName_none name).2 hn] at h
    exact hcall _ _ _ h
  · intro hn
    unfold makeVectorEnv
    rw [(splitName_none name).2 hn, hgym]
    simp
  · intro m h
    unfold makeVectorEnv at h
    rw [hgym] at h
    exact hcall _ _ _ (by simpa using h)
  · intro m h
    unfold makeVectorEnv at h
    rw [hbrax] at h
    simp only [show ("brax".toList = "gym".toList) = False by decide, if_false, if_true] at h
    unfold callWith makeBraxEnv at h
    split at h
    · cases h
    · cases installed with
      | false => simp at h
      | true => simp at h; exact ⟨rfl, _, h.symm⟩
  · intro hs h1 h2
    unfold makeVectorEnv
    rw [splitName_some _ _ hs]
    simp only [if_neg h1, if_neg h2]

example : makeVectorEnv true "gym::a::b".toList (some 2) ⟨true, true, true⟩ none none [] = .ok (.gymSync 2 "a::b".toList [] false none .none ⟨true, true, true⟩) := by decide +kernel
example : ¬ sep <:+: "MountainCar-v0".toList := (splitName_none _).1 (by decide +kernel)
example : ¬ sep <:+: "jumanji".toList ++ [':'] := (splitName_none _).1 (by decide +kernel)

/-! ### Options -/

theorem any_false_of (d : Dict String Val) (ns : List String) (h : ∀ n ∈ ns, dictGet d n = none) : d.any (fun p => ns.contains p.1) = false := by
  rw [List.any_eq_false]
  intro p hp hc
  have hc' : p.1 ∈ ns := by simpa using hc
  have := h p.1 hc'
  simp only [dictGet, Option.map_eq_none_iff, List.find?_eq_none] at this
  exact this p hp (by simp)

theorem none_of_any_false (d : Dict String Val) (ns : List String) (h : d.any (fun p => ns.contains p.1) = false) (n : String) (hn : n ∈ ns) : dictGet d n = none := by
  simp only [dictGet, Option.map_eq_none_iff, List.find?_eq_none]
  intro p hp hc
  rw [List.any_eq_false] at h
  refine h p hp ?_
  have : p.1 = n := by simpa using hc
  simpa [this] using hn

theorem dictGet_filter (d : Dict String Val) (ns : List String) (k : String) :
    dictGet (d.filter fun p => !(ns.contains p.1)) k = if k ∈ ns then none else dictGet d k := by
  induction d with
  | nil => simp [dictGet]
  | cons p d ih =>
    by_cases hp : ns.contains p.1
    · rw [List.filter_cons_of_neg (by simpa using hp), ih]
      by_cases hk : k ∈ ns
      · simp [hk]
      · have hne : p.1 ≠ k := by
          rintro rfl
          exact hk (by simpa using hp)
        simp [hk, dictGet, hne]
    · rw [List.filter_cons_of_pos (by simpa using hp)]
      by_cases hpk : p.1 = k
      · have : k ∉ ns := by rw [← hpk]; simpa using hp
        simp [dictGet, hpk, this]
      · have h1 : dictGet (p :: List.filter (fun p => !(ns.contains p.1)) d) k = dictGet (List.filter (fun p => !(ns.contains p.1)) d) k := by
          simp [dictGet, hpk]
        have h2 : dictGet (p :: d) k = dictGet d k := by simp [dictGet, hpk]
        rw [h1, h2, ih]

/-- A vectorized gym environment: the options given for gym environments have precedence over the general ones, the defaults are full infos, no episode limit and no device, and everything else goes to
`gym.make`. -/
theorem C130_options (installed : Bool) (name : List Char) (hname : ¬ sep <:+: name) (n : Int) (opts : WrapOpts) (gk kwargs : Dict String Val) (bk : Option (Dict String Val))
    (hgk : KeysNodup gk) (m : Made) (h : makeVectorEnv installed name (some n) opts (some gk) bk kwargs = .ok m) :
    ∃ rest ei eps dev, m = .gymSync n.toNat name rest ei eps dev opts ∧ 0 < n ∧
      (let value := fun k => (dictGet gk k).or (dictGet kwargs k)
       ei = ((value "empty_info").getD (.bool false)).truthy ∧
       episodesOf ((value "num_episodes").getD .none) = .ok eps ∧
       dev = (value "device").getD .none ∧
       ∀ k, dictGet rest k = if k ∈ ["empty_info", "num_episodes", "device"] then none else value k) := by
  have hupd : ∀ k, dictGet (dictUpdate kwargs gk) k = (dictGet gk k).or (dictGet kwargs k) := by
    intro k
    rw [dictGet_update, dictGet_reverse gk hgk]
  unfold makeVectorEnv at h
  rw [(splitName_none name).2 hname] at h
  simp only [Option.getD_some] at h
  unfold callWith at h
  split at h
  · cases h
  · unfold makeGymEnv at h
    simp only at h
    split at h
    · cases h
    · rename_i hn
      cases he : episodesOf (argOr (dictUpdate kwargs gk) "num_episodes" Val.none) with
      | error e => rw [he] at h; cases h
      | ok eps =>
        rw [he] at h
        cases h
        refine ⟨_, _, _, _, rfl, by omega, ?_, ?_, ?_, ?_⟩
        · simp [argOr, hupd]
        · rw [← he]; simp [argOr, hupd]
        · simp [argOr, hupd]
        · intro k
          have := dictGet_filter (dictUpdate kwargs gk) gymNames k
          simp only [gymRest]
          rw [this, hupd]
          rfl

example : makeVectorEnv true "X".toList (some 2) ⟨true, true, true⟩ (some [("num_episodes", .int 3)]) none [("num_episodes", .int 9), ("g", .int 1)] =
    .ok (.gymSync 2 "X".toList [("g", .int 1)] false (some 3) .none ⟨true, true, true⟩) := by decide +kernel

/-- How the options are read: `empty_info` is false exactly for `None`, `False` and 0; no limit of episodes is `None`, a positive integer is a limit (`True` is 1), other numbers are refused with a
ValueError. -/
theorem C130_option_values :
    (∀ v : Val, v.truthy = false ↔ v = .none ∨ v = .bool false ∨ v = .int 0) ∧
    episodesOf .none = .ok none ∧ (∀ n : Int, 0 < n → episodesOf (.int n) = .ok (some n)) ∧ episodesOf (.bool true) = .ok (some 1) ∧
    (∀ n : Int, n ≤ 0 → episodesOf (.int n) = .error .valueError) ∧ episodesOf (.bool false) = .error .valueError := by
  refine ⟨?_, rfl, ?_, rfl, ?_, rfl⟩
  · intro v
    cases v <;> simp [Val.truthy]
  · intro n hn; simp only [episodesOf]; rw [if_neg (by omega)]
  · intro n hn; simp only [episodesOf]; rw [if_pos hn]

/-- A single gym environment accepts none of the three options that only a vectorized one understands. -/
theorem C130_single (name : List Char) (opts : WrapOpts) (kwargs : Dict String Val) :
    (makeGymEnv name none opts kwargs = .ok (.gymSingle name (gymRest kwargs) opts) ↔
      (dictGet kwargs "empty_info" = none ∨ ∃ v, dictGet kwargs "empty_info" = some v ∧ v.truthy = false) ∧
      (dictGet kwargs "num_episodes" = none ∨ dictGet kwargs "num_episodes" = some .none) ∧ (dictGet kwargs "device" = none ∨ dictGet kwargs "device" = some .none)) ∧
    (makeGymEnv name none opts kwargs = .ok (.gymSingle name (gymRest kwargs) opts) ∨ makeGymEnv name none opts kwargs = .error .valueError) ∧
    (∀ k, dictGet (gymRest kwargs) k = if k ∈ ["empty_info", "num_episodes", "device"] then none else dictGet kwargs k) := by
  have e1 : (argOr kwargs "empty_info" (.bool false)).truthy = false ↔
      (dictGet kwargs "empty_info" = none ∨ ∃ v, dictGet kwargs "empty_info" = some v ∧ v.truthy = false) := by
    unfold argOr
    cases dictGet kwargs "empty_info" <;> simp [Val.truthy]
  have e2 : ∀ k, argOr kwargs k .none = .none ↔ (dictGet kwargs k = none ∨ dictGet kwargs k = some .none) := by
    intro k
    unfold argOr
    cases dictGet kwargs k <;> simp
  rw [← e1, ← e2, ← e2]
  unfold makeGymEnv
  simp only
  refine ⟨?_, ?_, ?_⟩
  · by_cases h1 : (argOr kwargs "empty_info" (.bool false)).truthy = true
    · simp [h1]
    · by_cases h2 : argOr kwargs "num_episodes" .none = .none
      · by_cases h3 : argOr kwargs "device" .none = .none
        · simp [h1, h2, h3]
        · simp [h1, h2, h3]
      · simp [h1, h2]
  · by_cases h1 : (argOr kwargs "empty_info" (.bool false)).truthy = true
    · simp [h1]
    · by_cases h2 : argOr kwargs "num_episodes" .none = .none
      · by_cases h3 : argOr kwargs "device" .none = .none
        · simp [h1, h2, h3]
        · simp [h1, h2, h3]
      · simp [h1, h2]
  · intro k
    exact dictGet_filter kwargs gymNames k

example : makeGymEnv "X".toList none ⟨false, false, false⟩ [("device", .other 0)] = .error .valueError := by decide +kernel

/-- A brax environment gets the general options, overridden by those for brax, and the number of sub-environments, and none of the options for gym. -/
theorem C130_brax (name : List Char) (numEnvs : Option Int) (opts : WrapOpts) (gk : Option (Dict String Val)) (bk kwargs : Dict String Val) (hbk : KeysNodup bk)
    (hres : ∀ k ∈ reserved, dictGet bk k = none ∧ dictGet kwargs k = none) :
    ∃ config, makeVectorEnv true ("brax".toList ++ sep ++ name) numEnvs opts gk (some bk) kwargs = .ok (.brax name config opts) ∧
      (∀ k, k ≠ "num_envs" → dictGet config k = (dictGet bk k).or (dictGet kwargs k)) ∧ dictGet config "num_envs" = numEnvs.map .int := by
  have hupd : ∀ k, dictGet (dictUpdate kwargs bk) k = (dictGet bk k).or (dictGet kwargs k) := by
    intro k
    rw [dictGet_update, dictGet_reverse bk hbk]
  have hany : (dictUpdate kwargs bk).any (fun p => reserved.contains p.1) = false := any_false_of _ _ (by
    intro k hk
    rw [hupd, (hres k hk).1, (hres k hk).2]
    rfl)
  have hbrax : splitName ("brax".toList ++ sep ++ name) = some ("brax".toList, name) := splitName_some _ _ (by decide)
  unfold makeVectorEnv
  rw [hbrax]
  simp only [show ("brax".toList = "gym".toList) = False by decide, if_false, if_true, Option.getD_some, callWith, hany, Bool.false_eq_true, makeBraxEnv]
  refine ⟨_, rfl, ?_, ?_⟩
  · intro k hk
    cases numEnvs with
    | none => exact hupd k
    | some n =>
      show dictGet (dictSet _ _ _) k = _
      rw [dictGet_set, if_neg (Ne.symm hk), hupd]
  · cases numEnvs with
    | none =>
      show dictGet (dictUpdate kwargs bk) "num_envs" = none
      rw [hupd, (hres "num_envs" (by decide)).1, (hres "num_envs" (by decide)).2]
      rfl
    | some n =>
      show dictGet (dictSet _ _ _) "num_envs" = _
      rw [dictGet_set, if_pos rfl]
      rfl

example : makeVectorEnv true "brax::ant".toList (some 5) ⟨true, true, true⟩ (some [("empty_info", .bool true)]) none [("backend", .other 1)] =
    .ok (.brax "ant".toList [("backend", .other 1), ("num_envs", .int 5)] ⟨true, true, true⟩) := by decide +kernel

/-- Options for gym environments that repeat an argument of `make_vector_env` are refused, and such options in the other dictionary do no harm. -/
theorem C130_repeated (installed : Bool) (name : List Char) (hname : ¬ sep <:+: name) (numEnvs : Option Int) (opts : WrapOpts) (gk kwargs : Dict String Val) (hgk : KeysNodup gk)
    (bk bk' : Option (Dict String Val)) (k : String) :
    (k ∈ ["env_name", "force_classic_api", "num_envs", "discrete_to_continuous_act", "clip_actions"] → dictGet gk k ≠ none →
      makeVectorEnv installed name numEnvs opts (some gk) bk kwargs = .error .typeError) ∧
    makeVectorEnv installed name numEnvs opts (some gk) bk kwargs = makeVectorEnv installed name numEnvs opts (some gk) bk' kwargs := by
  constructor
  · intro hk hg
    unfold makeVectorEnv
    rw [(splitName_none name).2 hname]
    simp only [Option.getD_some, callWith]
    rw [if_pos]
    cases hany : (dictUpdate kwargs gk).any (fun p => reserved.contains p.1) with
    | true => rfl
    | false =>
      exfalso
      have := none_of_any_false _ _ hany k hk
      rw [dictGet_update, dictGet_reverse gk hgk] at this
      cases hc : dictGet gk k with
      | none => exact hg hc
      | some v => rw [hc] at this; simp at this
  · unfold makeVectorEnv
    rw [(splitName_none name).2 hname]

example : makeVectorEnv true "X".toList (some 2) ⟨true, true, true⟩ (some [("num_envs", .int 3)]) none [] = .error .typeError := by decide +kernel

/-- The environment that a `VecGymNE` makes from a gym name: one sub-environment per policy, no infos, the episode limit of the problem, classic API, discrete actions as scores and clipping, whatever
`env_config` says about these; the rest of `env_config` goes to `gym.make`. -/
theorem C130_vecgymne (installed : Bool) (name : List Char) (hname : ¬ sep <:+: name) (numPolicies : Nat) (hp : numPolicies ≠ 0) (numEpisodes : Int) (he : 0 < numEpisodes)
    (auxDevice syncDevice : Option Val) (envConfig : Dict String Val) (hcfg : ∀ k ∈ "gym_kwargs" :: reserved, dictGet envConfig k = none) :
    ∃ rest dev, vecGymEnv installed name numPolicies numEpisodes auxDevice syncDevice envConfig =
        .ok (.gymSync numPolicies name rest true (some numEpisodes) dev ⟨true, true, true⟩) ∧
      dev = (auxDevice.or (syncDevice.or (dictGet envConfig "device"))).getD .none ∧
      ∀ k, dictGet rest k = if k ∈ ["empty_info", "num_episodes", "device"] then none else dictGet envConfig k := by
  have hany := any_false_of envConfig _ hcfg
  have hnodup : KeysNodup (gymCfg numEpisodes auxDevice syncDevice) := by
    unfold KeysNodup gymCfg
    cases auxDevice <;> cases syncDevice <;> simp
  have hget : ∀ k, dictGet (gymCfg numEpisodes auxDevice syncDevice) k =
      if k = "empty_info" then some (.bool true) else if k = "num_episodes" then some (.int numEpisodes) else if k = "device" then auxDevice.or syncDevice else none := by
    intro k
    by_cases h1 : k = "empty_info"
    · subst h1; cases auxDevice <;> cases syncDevice <;> simp [gymCfg, dictGet]
    · by_cases h2 : k = "num_episodes"
      · subst h2; cases auxDevice <;> cases syncDevice <;> simp [gymCfg, dictGet]
      · by_cases h3 : k = "device"
        · subst h3; cases auxDevice <;> cases syncDevice <;> simp [gymCfg, dictGet]
        · cases auxDevice <;> cases syncDevice <;> simp [gymCfg, dictGet, h1, h2, h3, Ne.symm h1, Ne.symm h2, Ne.symm h3]
  have hupd : ∀ k, dictGet (dictUpdate envConfig (gymCfg numEpisodes auxDevice syncDevice)) k =
      (dictGet (gymCfg numEpisodes auxDevice syncDevice) k).or (dictGet envConfig k) := by
    intro k
    rw [dictGet_update, dictGet_reverse _ hnodup]
  have hany2 : (dictUpdate envConfig (gymCfg numEpisodes auxDevice syncDevice)).any (fun p => reserved.contains p.1) = false := any_false_of _ _ (by
    intro k hk
    rw [hupd, hget, hcfg k (List.mem_cons_of_mem _ hk)]
    simp only [reserved, List.mem_cons, List.not_mem_nil, or_false] at hk
    rcases hk with rfl | rfl | rfl | rfl | rfl <;> simp)
  have hnp : ¬ ((numPolicies : Int) ≤ 0) := by omega
  have hepisodes : episodesOf (.int numEpisodes) = .ok (some numEpisodes) := by
    have : ¬ numEpisodes ≤ 0 := by omega
    simp [episodesOf, this]
  refine ⟨gymRest (dictUpdate envConfig (gymCfg numEpisodes auxDevice syncDevice)),
    argOr (dictUpdate envConfig (gymCfg numEpisodes auxDevice syncDevice)) "device" .none, ?_, ?_, ?_⟩
  · unfold vecGymEnv
    rw [hany]
    simp only [Bool.false_eq_true, if_false, makeVectorEnv]
    rw [(splitName_none name).2 hname]
    simp only [Option.getD_some, callWith, hany2, Bool.false_eq_true, if_false, makeGymEnv, if_neg hnp]
    have h1 : argOr (dictUpdate envConfig (gymCfg numEpisodes auxDevice syncDevice)) "num_episodes" .none = .int numEpisodes := by
      simp [argOr, hupd, hget]
    have h2 : argOr (dictUpdate envConfig (gymCfg numEpisodes auxDevice syncDevice)) "empty_info" (.bool false) = .bool true := by
      simp [argOr, hupd, hget]
    rw [h1, h2, hepisodes]
    simp [Except.bind, Val.truthy]
  · unfold argOr
    rw [hupd, hget]
    cases auxDevice <;> cases syncDevice <;> simp
  · intro k
    have := dictGet_filter (dictUpdate envConfig (gymCfg numEpisodes auxDevice syncDevice)) gymNames k
    simp only [gymRest]
    rw [this, hupd, hget]
    by_cases hk : k ∈ gymNames
    · have hk' : k ∈ ["empty_info", "num_episodes", "device"] := hk
      rw [if_pos hk, if_pos hk']
    · have hk' : k ∉ ["empty_info", "num_episodes", "device"] := hk
      rw [if_neg hk, if_neg hk']
      simp only [List.mem_cons, List.not_mem_nil, or_false, not_or] at hk'
      simp [hk'.1, hk'.2.1, hk'.2.2]

example : vecGymEnv true "X".toList 4 1 none none [("empty_info", .bool false), ("g", .int 1)] =
    .ok (.gymSync 4 "X".toList [("g", .int 1)] true (some 1) .none ⟨true, true, true⟩) := by decide +kernel

/-- An `env_config` that repeats an argument which `VecGymNE` passes itself is refused. -/
theorem C130_vecgymne_refused (installed : Bool) (name : List Char) (numPolicies : Nat) (numEpisodes : Int) (auxDevice syncDevice : Option Val) (envConfig : Dict String Val) (k : String)
    (hk : k ∈ ["gym_kwargs", "env_name", "force_classic_api", "num_envs", "discrete_to_continuous_act", "clip_actions"]) (hc : dictGet envConfig k ≠ none) :
    vecGymEnv installed name numPolicies numEpisodes auxDevice syncDevice envConfig = .error .typeError := by
  unfold vecGymEnv
  rw [if_pos]
  cases hany : envConfig.any (fun p => ("gym_kwargs" :: reserved).contains p.1) with
  | true => rfl
  | false => exact absurd (none_of_any_false _ _ hany k hk) hc

example : dictGet [("num_envs", Val.int 3)] "num_envs" ≠ none := by decide +kernel

end EvoTorch.VecEnvMake
