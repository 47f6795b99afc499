import Verif.Proofs.Modify
import Verif.Spec.Modify
import Mathlib.Algebra.Order.Ring.Rat
import Mathlib.Tactic.NormNum
/-! C44: `modify_tensor` honours its limits. -/
namespace EvoTorch.Modify
open Flt Spec
variable {K : Type} [Field K] [LinearOrder K] [IsStrictOrderedRing K]

theorem convert_ok {n : Nat} {d : Flt K} {l : Option (Limit K)} (h : Valid n l) :
    ∃ l', convert n d l = .ok l' ∧ ∀ i < n, (l'.at i = limitAt d l i) ∧
      (d.isNan = false → (l'.at i).isNan = false) := by
  match l, h with
  | none, _ => exact ⟨_, rfl, fun i _ => ⟨rfl, id⟩⟩
  | some (.scalar x), h => exact ⟨_, rfl, fun i _ => ⟨rfl, fun _ => h⟩⟩
  | some (.tensor xs), h =>
    refine ⟨.tensor xs, by simp [convert, Limit.fits, h.1], fun i hi => ⟨rfl, fun _ => ?_⟩⟩
    have : i < xs.length := h.1 ▸ hi
    simp only [Limit.at, List.getD_eq_getElem?_getD, List.getElem?_eq_getElem this, Option.getD_some]
    exact h.2 _ (List.getElem_mem this)

theorem modifyElem_spec (o t : K) {lb ub : Flt K} (hlb : lb.isNan = false) (hub : ub.isNan = false)
    {c : Option (Flt K)} (hc : ∀ x, c = some x → ∃ c', x = .fin c') :
    Flt.le (modifyElem (.fin o) (.fin t) lb ub c) ub = true ∧
    ((∃ y, Allowed o lb ub c y) → ∃ x, modifyElem (.fin o) (.fin t) lb ub c = .fin x ∧ Allowed o lb ub c x ∧
      ∀ y, Allowed o lb ub c y → |x - t| ≤ |y - t|) := by
  cases c with
  | none =>
    have hA : ∀ y, Allowed o lb ub none y ↔ InBounds lb ub y := fun y => by simp [Allowed, InBand]
    refine ⟨clip_le _ rfl hlb hub, fun ⟨y, hy⟩ => ?_⟩
    rw [hA] at hy
    obtain ⟨x, e, h1, h2, h3⟩ := clip_closest t y hy.1 hy.2
    exact ⟨x, e, (hA x).mpr ⟨h1, h2⟩, fun z hz => h3 z ((hA z).mp hz).1 ((hA z).mp hz).2⟩
  | some x =>
    obtain ⟨c, rfl⟩ := hc x rfl
    have hd : modifyElem (.fin o) (.fin t) lb ub (some (.fin c)) =
        min2 (max2 (.fin t) (max2 lb (.fin (o - |o| * c)))) (min2 ub (.fin (o + |o| * c))) := by
      simp only [modifyElem, allowed_fin, Flt.sub, Flt.add]
    have hL : (max2 lb (Flt.fin (o - |o| * c))).isNan = false := max2_isNan hlb rfl
    have hU : (min2 ub (Flt.fin (o + |o| * c))).isNan = false := min2_isNan hub rfl
    have hA : ∀ y, Allowed o lb ub (some (.fin c)) y ↔
        Flt.le (max2 lb (.fin (o - |o| * c))) (.fin y) = true ∧ Flt.le (.fin y) (min2 ub (.fin (o + |o| * c))) = true := by
      intro y
      rw [max2_le_iff hlb rfl, le_min2_iff hub rfl, fin_le, fin_le]
      simp only [Allowed, InBounds, InBand, Option.some.injEq, Flt.fin.injEq]
      constructor
      · rintro ⟨⟨a, b⟩, h⟩
        have := abs_le.mp (h c rfl)
        exact ⟨⟨a, by linarith⟩, b, by linarith⟩
      · rintro ⟨⟨a, h1⟩, b, h2⟩
        refine ⟨⟨a, b⟩, ?_⟩
        rintro _ rfl
        exact abs_le.mpr ⟨by linarith, by linarith⟩
    rw [hd]
    refine ⟨?_, fun ⟨y, hy⟩ => ?_⟩
    · have := clip_le (.fin t) rfl hL hU
      exact ((le_min2_iff hub rfl).mp this).1
    · rw [hA] at hy
      obtain ⟨x, e, h1, h2, h3⟩ := clip_closest t y hy.1 hy.2
      exact ⟨x, e, (hA x).mpr ⟨h1, h2⟩, fun z hz => h3 z ((hA z).mp hz).1 ((hA z).mp hz).2⟩

theorem changeAt_finite {n : Nat} {mc : Option (Limit K)} (hv : Valid n mc) (hf : Spec.Finite mc) {i : Nat} (hi : i < n) :
    ∀ x, changeAt mc i = some x → ∃ c', x = .fin c' := by
  match mc, hv, hf with
  | none, _, _ => simp [changeAt]
  | some (.scalar x), _, hf => simpa [changeAt, Spec.Finite] using hf
  | some (.tensor xs), hv, hf =>
    intro x hx
    simp only [changeAt, Option.some.injEq] at hx
    have hi' : i < xs.length := hv.1 ▸ hi
    rw [List.getD_eq_getElem?_getD, List.getElem?_eq_getElem hi', Option.getD_some] at hx
    exact hx ▸ hf _ (List.getElem_mem hi')

/-- What `modify_tensor` computes, element by element. -/
theorem modifyTensor_eq (original target : List (Flt K)) (lb ub mc : Option (Limit K)) (inPlace : Bool)
    (hlen : target.length = original.length)
    (hlb : Valid original.length lb) (hub : Valid original.length ub) (hmc : Valid original.length mc) :
    ∃ r, modifyTensor original target lb ub mc inPlace = .ok (r, if inPlace then r else original) ∧
      r.length = original.length ∧
      ∀ i, ∀ o t : Flt K, original[i]? = some o → target[i]? = some t →
        ((lb = none ∧ ub = none ∧ mc = none) → r[i]? = some t) ∧
        (¬ (lb = none ∧ ub = none ∧ mc = none) →
          r[i]? = some (modifyElem o t (lowerAt lb i) (upperAt ub i) (changeAt mc i))) := by
  by_cases hn : lb = none ∧ ub = none ∧ mc = none
  · obtain ⟨rfl, rfl, rfl⟩ := hn
    refine ⟨target, ?_, hlen, fun i o t _ ht => ⟨fun _ => ht, fun h => absurd ⟨rfl, rfl, rfl⟩ h⟩⟩
    cases inPlace <;> simp [modifyTensor, hlen, pure, Except.pure]
  · obtain ⟨l', el, hl⟩ := convert_ok (d := .ninf) hlb
    obtain ⟨u', eu, hu⟩ := convert_ok (d := .pinf) hub
    have hg : (lb.isNone && ub.isNone && mc.isNone) = false := by
      cases lb <;> cases ub <;> cases mc <;> simp_all
    have em : convertChange original.length mc = .ok mc := by
      match mc, hmc with
      | none, _ => rfl
      | some (.scalar x), _ => rfl
      | some (.tensor xs), h => simp [convertChange, Limit.fits, h.1]
    refine ⟨(List.range original.length).map fun i =>
      modifyElem (original.getD i .nan) (target.getD i .nan) (l'.at i) (u'.at i) (mc.map (·.at i)), ?_, by simp, ?_⟩
    · unfold modifyTensor
      simp [hg, el, eu, em, hlen, bind, Except.bind, pure, Except.pure]
    · intro i o t ho ht
      refine ⟨fun h => absurd h hn, fun _ => ?_⟩
      obtain ⟨hi, _⟩ := List.getElem?_eq_some_iff.mp ho
      rw [List.getElem?_map, List.getElem?_range hi]
      have e1 : l'.at i = lowerAt lb i := by
        rw [(hl i hi).1]; rfl
      have e2 : u'.at i = upperAt ub i := by
        rw [(hu i hi).1]; rfl
      have e3 : mc.map (·.at i) = changeAt mc i := by
        match mc with
        | none => rfl
        | some (.scalar x) => rfl
        | some (.tensor xs) => rfl
      simp [List.getD_eq_getElem?_getD, ho, ht, e1, e2, e3]

/-- **C44.** `modify_tensor(original, target, lb, ub, max_change)` on finite tensors of equal length, for limits given as
`None`, scalars or tensors of the same length without NaN and a finite `max_change`: the call succeeds, it overwrites
`original` exactly when `in_place`, no element exceeds its upper bound, and every element for which some value satisfies all
limits gets the value closest to its target among the values that do. -/
theorem C44_modify_tensor (original target : List K) (lb ub mc : Option (Limit K)) (inPlace : Bool)
    (hlen : target.length = original.length)
    (hlb : Valid original.length lb) (hub : Valid original.length ub) (hmc : Valid original.length mc)
    (hfin : Spec.Finite mc) :
    ∃ r, modifyTensor (original.map .fin) (target.map .fin) lb ub mc inPlace =
        .ok (r, if inPlace then r else original.map .fin) ∧
      r.length = original.length ∧
      ∀ i, ∀ o t : K, original[i]? = some o → target[i]? = some t →
        (∃ v, r[i]? = some v ∧ Flt.le v (upperAt ub i) = true) ∧
        ((∃ y, Allowed o (lowerAt lb i) (upperAt ub i) (changeAt mc i) y) →
          ∃ x : K, r[i]? = some (.fin x) ∧ Allowed o (lowerAt lb i) (upperAt ub i) (changeAt mc i) x ∧
            ∀ y, Allowed o (lowerAt lb i) (upperAt ub i) (changeAt mc i) y → |x - t| ≤ |y - t|) := by
  have hlb' : Valid (original.map Flt.fin).length lb := by simpa using hlb
  have hub' : Valid (original.map Flt.fin).length ub := by simpa using hub
  have hmc' : Valid (original.map Flt.fin).length mc := by simpa using hmc
  obtain ⟨r, e, hr, h⟩ := modifyTensor_eq (original.map .fin) (target.map .fin) lb ub mc inPlace (by simpa using hlen)
    hlb' hub' hmc'
  refine ⟨r, e, by simpa using hr, fun i o t ho ht => ?_⟩
  obtain ⟨hi, _⟩ := List.getElem?_eq_some_iff.mp ho
  obtain ⟨h1, h2⟩ := h i (.fin o) (.fin t) (by simp [ho]) (by simp [ht])
  by_cases hn : lb = none ∧ ub = none ∧ mc = none
  · obtain ⟨rfl, rfl, rfl⟩ := hn
    refine ⟨⟨.fin t, h1 ⟨rfl, rfl, rfl⟩, rfl⟩, fun _ => ⟨t, h1 ⟨rfl, rfl, rfl⟩, ?_, fun y _ => by simp⟩⟩
    exact ⟨⟨rfl, rfl⟩, by simp [InBand, changeAt]⟩
  · have hl : (lowerAt lb i).isNan = false := by
      obtain ⟨l', _, hl⟩ := convert_ok (d := .ninf) hlb
      have := (hl i hi).2 rfl
      rw [(hl i hi).1] at this
      exact this
    have hu : (upperAt ub i).isNan = false := by
      obtain ⟨l', _, hl⟩ := convert_ok (d := .pinf) hub
      have := (hl i hi).2 rfl
      rw [(hl i hi).1] at this
      exact this
    obtain ⟨s1, s2⟩ := modifyElem_spec o t hl hu (changeAt_finite hmc hfin hi)
    rw [h2 hn]
    refine ⟨⟨_, rfl, s1⟩, fun hy => ?_⟩
    obtain ⟨x, ex, hx⟩ := s2 hy
    exact ⟨x, by rw [ex], hx⟩

/-- The hypotheses are met and the limits matter: from 10 towards 20 with change limit 0.2 and bounds [0, 11]. -/
example : modifyTensor (K := ℚ) [.fin 10, .fin 10, .fin (-10)] [.fin 20, .fin 3, .fin (-11)] (some (.scalar (.fin (-100))))
    (some (.tensor [.fin 11, .pinf, .fin 0])) (some (.scalar (.fin (1/5)))) =
    .ok ([.fin 11, .fin 8, .fin (-11)], [.fin 10, .fin 10, .fin (-10)]) := by decide +kernel

example : Allowed (10 : ℚ) (.fin 0) (.fin 11) (some (.fin (1/5))) 9 := by
  refine ⟨⟨rfl, by decide +kernel⟩, ?_⟩
  intro c hc
  simp only [Option.some.injEq, Flt.fin.injEq] at hc
  subst hc
  rw [abs_of_nonpos (by norm_num), abs_of_nonneg (by norm_num)]; norm_num

/-- The upper bound is honoured even when nothing satisfies all limits, the lower bound is not: from 10 with change limit
0.2 the upper bound 1 is reached at once, from 0.1 the lower bound 1 is not. -/
theorem C44_lower_bound_yields :
    modifyTensor (K := ℚ) [.fin 10] [.fin 20] none (some (.scalar (.fin 1))) (some (.scalar (.fin (1/5)))) =
      .ok ([.fin 1], [.fin 10]) ∧
    modifyTensor (K := ℚ) [.fin (1/10)] [.fin 20] (some (.scalar (.fin 1))) none (some (.scalar (.fin (1/5)))) =
      .ok ([.fin (3/25)], [.fin (1/10)]) := by
  constructor <;> decide +kernel

/-- A limit tensor of another length is refused with an `IndexError`. -/
theorem C44_shape_mismatch (original target : List (Flt K)) (xs : List (Flt K)) (ub mc : Option (Limit K)) (ip : Bool)
    (h : xs.length ≠ original.length) :
    modifyTensor original target (some (.tensor xs)) ub mc ip = .error .indexError := by
  simp [modifyTensor, convert, Limit.fits, h, bind, Except.bind]

example : modifyTensor (K := ℚ) [.fin 1] [.fin 2] (some (.tensor [.fin 0, .fin 0])) none none = .error .indexError := by
  decide +kernel

end EvoTorch.Modify
