import Verif.Props.Modify
/-! C45: controlled standard deviation over whole runs. -/
namespace EvoTorch.Modify
open Flt Spec
variable {K : Type} [Field K] [LinearOrder K] [IsStrictOrderedRing K]

/-- An update rule that maps finite standard deviations and gradients to finite targets (no overflow). -/
def Rule.Finite (rule : Rule K) : Prop :=
  ∀ sigma grad : List K, grad.length = sigma.length →
    ∃ t : List K, rule.target (sigma.map .fin) (grad.map .fin) = t.map .fin ∧ t.length = sigma.length

theorem Rule.additive_finite (lr : K) : (Rule.additive (.fin lr)).Finite := by
  intro sigma grad h
  refine ⟨List.zipWith (fun s g => s + lr * g) sigma grad, ?_, by simp [h]⟩
  simp only [Rule.target, List.zipWith_map_left, List.zipWith_map_right, List.map_zipWith]
  rfl

theorem Rule.multiplicative_finite (lr : K) (e : Flt K → Flt K) (he : ∀ x, ∃ y, e (.fin x) = .fin y) :
    (Rule.multiplicative (.fin lr) e).Finite := by
  choose f hf using he
  intro sigma grad h
  refine ⟨List.zipWith (fun s g => s * f (lr * g)) sigma grad, ?_, by simp [h]⟩
  simp only [Rule.target, List.zipWith_map_left, List.zipWith_map_right, List.map_zipWith, Flt.mul, hf]

/-- Every element of the vector respects the limits `stdev_min` and `stdev_max`. -/
def Spec.Within (c : Control K) (s : List K) : Prop :=
  ∀ i x, s[i]? = some x → InBounds (lowerAt c.stdevMin i) (upperAt c.stdevMax i) x

/-- Every element changed by at most the fraction `stdev_max_change`. -/
def Spec.SmallChange (c : Control K) (old new : List K) : Prop :=
  ∀ i x y, old[i]? = some x → new[i]? = some y → InBand x (changeAt c.stdevMaxChange i) y

/-- Settings of a search algorithm with `n` decision variables that the API accepts: limits without NaN and of the right
length, and a finite non-negative `stdev_max_change`. -/
structure Spec.ValidControl (n : Nat) (c : Control K) : Prop where
  lo : Valid n c.stdevMin
  hi : Valid n c.stdevMax
  mc : Valid n c.stdevMaxChange
  fin : Spec.Finite c.stdevMaxChange
  nonneg : ∀ i < n, ∀ x : K, changeAt c.stdevMaxChange i = some (.fin x) → 0 ≤ x

/-- One controlled update. -/
theorem updateStdev_step {c : Control K} {rule : Rule K} (hr : rule.Finite) {sigma grad : List K}
    (hc : ValidControl sigma.length c) (hg : grad.length = sigma.length) (hw : Within c sigma) :
    ∃ s : List K, updateStdev c rule (sigma.map .fin) (grad.map .fin) = .ok (s.map .fin) ∧ s.length = sigma.length ∧
      Within c s ∧ SmallChange c sigma s := by
  obtain ⟨t, et, ht⟩ := hr sigma grad hg
  by_cases hn : c.stdevMin.isSome || c.stdevMax.isSome || c.stdevMaxChange.isSome
  · obtain ⟨r, er, hl, h⟩ := C44_modify_tensor sigma t c.stdevMin c.stdevMax c.stdevMaxChange false ht hc.lo hc.hi hc.mc hc.fin
    have hself : ∀ i o, sigma[i]? = some o →
        Allowed o (lowerAt c.stdevMin i) (upperAt c.stdevMax i) (changeAt c.stdevMaxChange i) o := by
      intro i o ho
      refine ⟨hw i o ho, fun x hx => ?_⟩
      obtain ⟨hi, _⟩ := List.getElem?_eq_some_iff.mp ho
      have := hc.nonneg i hi x hx
      simpa using mul_nonneg (abs_nonneg o) this
    have hall : ∀ i, i < sigma.length → ∃ x : K, r[i]? = some (.fin x) ∧ ∀ o, sigma[i]? = some o →
        Allowed o (lowerAt c.stdevMin i) (upperAt c.stdevMax i) (changeAt c.stdevMaxChange i) x := by
      intro i hi
      have ho : sigma[i]? = some sigma[i] := List.getElem?_eq_getElem hi
      have hti : t[i]? = some (t[i]'(ht ▸ hi)) := List.getElem?_eq_getElem _
      obtain ⟨x, ex, hx, _⟩ := (h i _ _ ho hti).2 ⟨_, hself i _ ho⟩
      refine ⟨x, ex, fun o ho' => ?_⟩
      rw [ho] at ho'; injection ho' with ho'; subst ho'; exact hx
    have hx : ∃ s : List K, r = s.map .fin := by
      have : ∀ v ∈ r, ∃ x : K, Flt.fin x = v := by
        intro v hv
        obtain ⟨i, hi, e⟩ := List.getElem_of_mem hv
        obtain ⟨x, ex, _⟩ := hall i (hl ▸ hi)
        rw [List.getElem?_eq_getElem hi, e] at ex
        exact ⟨x, (Option.some.inj ex).symm⟩
      clear er hl h hall
      induction r with
      | nil => exact ⟨[], rfl⟩
      | cons v r ih =>
        obtain ⟨x, rfl⟩ := this v (by simp)
        obtain ⟨s, rfl⟩ := ih (fun v hv => this v (by simp [hv]))
        exact ⟨x :: s, rfl⟩
    obtain ⟨s, rfl⟩ := hx
    have hs : s.length = sigma.length := by simpa using hl
    refine ⟨s, ?_, hs, ?_, ?_⟩
    · simp [updateStdev, hn, et, er, Except.map]
    · intro i x hx
      obtain ⟨hi, _⟩ := List.getElem?_eq_some_iff.mp hx
      obtain ⟨x', ex, h'⟩ := hall i (hs ▸ hi)
      simp only [List.getElem?_map, hx, Option.map_some, Option.some.injEq, Flt.fin.injEq] at ex
      subst ex
      exact (h' _ (List.getElem?_eq_getElem (hs ▸ hi))).1
    · intro i x y hx hy
      obtain ⟨hi, _⟩ := List.getElem?_eq_some_iff.mp hx
      obtain ⟨x', ex, h'⟩ := hall i hi
      simp only [List.getElem?_map, hy, Option.map_some, Option.some.injEq, Flt.fin.injEq] at ex
      subst ex
      exact (h' _ hx).2
  · have hlo : c.stdevMin = none := by
      cases h : c.stdevMin <;> simp_all
    have hhi : c.stdevMax = none := by
      cases h : c.stdevMax <;> simp_all
    have hmc : c.stdevMaxChange = none := by
      cases h : c.stdevMaxChange <;> simp_all
    refine ⟨t, by simp [updateStdev, hn, et], ht, ?_, ?_⟩
    · intro i x _; rw [hlo, hhi]; exact ⟨rfl, rfl⟩
    · intro i x y _ _; rw [hmc]; simp [InBand, changeAt]

theorem stdevRun_spec {c : Control K} {rule : Rule K} (hr : rule.Finite) (grads : List (List K)) :
    ∀ sigma : List K, ValidControl sigma.length c → (∀ g ∈ grads, g.length = sigma.length) → Within c sigma →
    ∃ run : List (List K), stdevRun c rule (sigma.map .fin) (grads.map (List.map .fin)) = run.map (List.map .fin) ∧
      run.length = grads.length + 1 ∧ run[0]? = some sigma ∧
      (∀ s ∈ run, s.length = sigma.length ∧ Within c s) ∧
      ∀ k a b, run[k]? = some a → run[k + 1]? = some b → SmallChange c a b := by
  induction grads with
  | nil =>
    intro sigma hc _ hw
    refine ⟨[sigma], rfl, rfl, rfl, ?_, ?_⟩
    · intro s hs; rw [List.mem_singleton.mp hs]; exact ⟨rfl, hw⟩
    · intro k a b _ hb; simp at hb
  | cons g gs ih =>
    intro sigma hc hg hw
    obtain ⟨s, es, hs, hws, hsc⟩ := updateStdev_step hr hc (hg g (by simp)) hw
    obtain ⟨run, e, hl, h0, h1, h2⟩ := ih s (hs ▸ hc) (fun g' hg' => by rw [hs]; exact hg g' (by simp [hg'])) hws
    refine ⟨sigma :: run, ?_, by simp [hl], rfl, ?_, ?_⟩
    · simp [stdevRun, es, e]
    · intro s' hs'
      rcases List.mem_cons.mp hs' with rfl | hs'
      · exact ⟨rfl, hw⟩
      · obtain ⟨a, b⟩ := h1 s' hs'; exact ⟨a.trans hs, b⟩
    · intro k a b ha hb
      cases k with
      | zero =>
        simp only [List.getElem?_cons_zero, Option.some.injEq] at ha
        simp only [zero_add, List.getElem?_cons_succ, h0, Option.some.injEq] at hb
        subst ha; subst hb; exact hsc
      | succ k =>
        exact h2 k a b (by simpa using ha) (by simpa using hb)

/-- **C45.** For every accepted setting of `stdev_min`, `stdev_max` and `stdev_max_change`, both update rules (additive as in
PGPE and CEM, multiplicative as in SNES), every initial standard deviation inside the limits and every sequence of gradients
of the right length: no update fails, every standard deviation of the run is inside the limits and every update changes each
element by at most the given fraction. -/
theorem C45_stdev_within_limits {c : Control K} {rule : Rule K} (hr : rule.Finite) (sigma : List K)
    (grads : List (List K)) (hc : ValidControl sigma.length c) (hg : ∀ g ∈ grads, g.length = sigma.length)
    (hinit : Within c sigma) :
    ∃ run : List (List K), stdevRun c rule (sigma.map .fin) (grads.map (List.map .fin)) = run.map (List.map .fin) ∧
      run.length = grads.length + 1 ∧ run[0]? = some sigma ∧
      (∀ s ∈ run, s.length = sigma.length ∧ Within c s) ∧
      ∀ k a b, run[k]? = some a → run[k + 1]? = some b → SmallChange c a b :=
  stdevRun_spec hr grads sigma hc hg hinit

/-- **C45**, positivity: if moreover every element has a change limit below 1 and the initial standard deviation is positive
then it stays positive, whatever the gradients. -/
theorem C45_stdev_stays_positive {c : Control K} {rule : Rule K} (hr : rule.Finite) (sigma : List K)
    (grads : List (List K)) (hc : ValidControl sigma.length c) (hg : ∀ g ∈ grads, g.length = sigma.length)
    (hinit : Within c sigma) (hpos : ∀ x ∈ sigma, 0 < x)
    (hlt : ∀ i < sigma.length, ∃ x : K, changeAt c.stdevMaxChange i = some (.fin x) ∧ x < 1) :
    ∃ run : List (List K), stdevRun c rule (sigma.map .fin) (grads.map (List.map .fin)) = run.map (List.map .fin) ∧
      run.length = grads.length + 1 ∧ ∀ s ∈ run, ∀ x ∈ s, 0 < x := by
  obtain ⟨run, e, hl, h0, h1, h2⟩ := stdevRun_spec hr grads sigma hc hg hinit
  refine ⟨run, e, hl, ?_⟩
  have key : ∀ (k : Nat) (s : List K), run[k]? = some s → ∀ x ∈ s, 0 < x := by
    intro k
    induction k with
    | zero => intro s hs; rw [h0] at hs; injection hs with hs; subst hs; exact hpos
    | succ k ih =>
      intro s hs x hx
      obtain ⟨hk, _⟩ := List.getElem?_eq_some_iff.mp hs
      have hk' : k < run.length := by omega
      have ha : run[k]? = some run[k] := List.getElem?_eq_getElem hk'
      obtain ⟨i, hi, ex⟩ := List.getElem_of_mem hx
      have hsl := (h1 s (List.mem_of_getElem? hs)).1
      have hal := (h1 run[k] (List.getElem_mem hk')).1
      have hia : i < run[k].length := by omega
      have hb := h2 k run[k] s ha hs i (run[k][i]) x (List.getElem?_eq_getElem hia) (by rw [List.getElem?_eq_getElem hi, ex])
      obtain ⟨c', ec, hc'⟩ := hlt i (by omega)
      have hp := ih run[k] ha _ (List.getElem_mem hia)
      have := abs_le.mp (hb c' ec)
      rw [abs_of_pos hp] at this
      nlinarith [this.1]
  intro s hs
  obtain ⟨k, hk, e⟩ := List.getElem_of_mem hs
  exact key k s (by rw [List.getElem?_eq_getElem hk, e])

/-- A run of PGPE's kind with limits that bind: the first gradient pushes the element down, the change limit and the lower
bound hold. -/
example : stdevRun (K := ℚ) ⟨some (.scalar (.fin (7/10))), some (.scalar (.fin 2)), some (.scalar (.fin (1/5)))⟩
    (.additive (.fin 1)) [.fin 1, .fin 1] [[.fin (-5), .fin 5], [.fin (-5), .fin 100]] =
    [[.fin 1, .fin 1], [.fin (4/5), .fin (6/5)], [.fin (7/10), .fin (36/25)]] := by decide +kernel

example : ValidControl (K := ℚ) 2 ⟨some (.scalar (.fin (7/10))), some (.scalar (.fin 2)), some (.scalar (.fin (1/5)))⟩ :=
  ⟨rfl, rfl, rfl, ⟨_, rfl⟩, by
    intro i _ x hx
    simp only [changeAt, Option.some.injEq, Flt.fin.injEq] at hx
    subst hx; norm_num⟩

example : Within (K := ℚ) ⟨some (.scalar (.fin (7/10))), some (.scalar (.fin 2)), some (.scalar (.fin (1/5)))⟩ [1, 1] := by
  intro i x hx
  have : x = 1 := by
    have := List.mem_of_getElem? hx
    simpa using this
  subst this
  exact ⟨by show Flt.le (.fin (7/10 : ℚ)) (.fin 1) = true; decide +kernel,
    by show Flt.le (.fin 1) (.fin (2 : ℚ)) = true; decide +kernel⟩

/-- Without any limit and with the additive rule, one gradient makes the standard deviation
negative: the limits are what protects it. -/
theorem C45_uncontrolled_can_be_negative :
    stdevRun (K := ℚ) ⟨none, none, none⟩ (.additive (.fin 1)) [.fin 1] [[.fin (-5)]] = [[.fin 1], [.fin (-4)]] := by
  decide +kernel

end EvoTorch.Modify
