import Verif.Props.StdevControl
/-! C46: `modify_vector` and the standard deviation of the functional PGPE and CEM. -/
namespace EvoTorch.Modify
open Flt Spec
variable {K : Type} [Field K] [LinearOrder K] [IsStrictOrderedRing K]

/-- One element of `modify_vector` when all limits are given. -/
def vecElem (o t lb ub : Flt K) (c : Option (Flt K)) : Flt K :=
  let x := match c with
    | none => t
    | some c => min2 (max2 t (Flt.sub o (Flt.mul (Flt.abs o) c))) (Flt.add o (Flt.mul (Flt.abs o) c))
  min2 (max2 x lb) ub

/-- A change limit that makes sense for the old value `o`: absent, finite and not negative, or infinite (if `o` is not 0). -/
def Spec.ChangeOk (o : K) : Option (Flt K) → Prop
  | none => True
  | some (.fin c) => 0 ≤ c
  | some .pinf => o ≠ 0
  | _ => False

theorem clip_between (t : K) {L U : Flt K} (o : K) (h1 : le L (.fin o) = true) (h2 : le (.fin o) U = true) :
    ∃ x, min2 (max2 (.fin t) L) U = .fin x ∧ le L (.fin x) = true ∧ le (.fin x) U = true ∧ |x - o| ≤ |t - o| := by
  obtain ⟨x, e, hl, hu, h⟩ := clip_closest t o h1 h2
  refine ⟨x, e, hl, hu, ?_⟩
  rcases le_total t o with hto | hto
  · rw [abs_of_nonpos (by linarith : t - o ≤ 0)]
    -- x ≤ o, since otherwise o would be closer
    have := h o h1 h2
    rw [abs_of_nonneg (by linarith : 0 ≤ o - t)] at this
    have h' := abs_le.mp this
    have hxt : t ≤ x := by
      by_contra hc
      push Not at hc
      -- t is between x and o, hence allowed, hence closest
      have ha : le L (.fin t) = true := le_trans' hl (fin_le.mpr hc.le)
      have hb : le (.fin t) U = true := le_trans' (fin_le.mpr hto) h2
      have := h t ha hb
      simp only [sub_self, abs_zero, abs_nonpos_iff] at this
      linarith
    rw [abs_of_nonpos (by linarith)]; linarith
  · rw [abs_of_nonneg (by linarith : 0 ≤ t - o)]
    have := h o h1 h2
    rw [abs_of_nonpos (by linarith : o - t ≤ 0)] at this
    have h' := abs_le.mp this
    have hxt : x ≤ t := by
      by_contra hc
      push Not at hc
      have ha : le L (.fin t) = true := le_trans' h1 (fin_le.mpr hto)
      have hb : le (.fin t) U = true := le_trans' (fin_le.mpr hc.le) hu
      have := h t ha hb
      simp only [sub_self, abs_zero, abs_nonpos_iff] at this
      linarith
    rw [abs_of_nonneg (by linarith)]; linarith

theorem vecElem_spec (o t : K) {lb ub : Flt K} (h : Flt.le lb ub = true) {c : Option (Flt K)} (hc : ChangeOk o c) :
    (Flt.le lb (vecElem (.fin o) (.fin t) lb ub c) = true ∧ Flt.le (vecElem (.fin o) (.fin t) lb ub c) ub = true) ∧
    (InBounds lb ub o → ∃ x, vecElem (.fin o) (.fin t) lb ub c = .fin x ∧ InBand o c x) := by
  have hx : ∃ x, (match c with
      | none => Flt.fin t
      | some c => min2 (max2 (.fin t) (Flt.sub (.fin o) (Flt.mul (Flt.abs (.fin o)) c)))
        (Flt.add (.fin o) (Flt.mul (Flt.abs (.fin o)) c))) = Flt.fin x ∧ InBand o c x := by
    match c, hc with
    | none, _ => exact ⟨t, rfl, by simp [InBand]⟩
    | some (.fin c), hc =>
      have hc : 0 ≤ c := hc
      simp only [allowed_fin, Flt.sub, Flt.add]
      have : 0 ≤ |o| * c := mul_nonneg (abs_nonneg o) hc
      obtain ⟨x, e, h1, h2, _⟩ := clip_closest t (L := .fin (o - |o| * c)) (U := .fin (o + |o| * c)) o
        (fin_le.mpr (by linarith)) (fin_le.mpr (by linarith))
      rw [fin_le] at h1 h2
      refine ⟨x, e, ?_⟩
      intro c' hc'
      simp only [Option.some.injEq, Flt.fin.injEq] at hc'
      subst hc'
      exact abs_le.mpr ⟨by linarith, by linarith⟩
    | some .pinf, hc =>
      have hc : o ≠ 0 := hc
      refine ⟨t, ?_, by simp [InBand]⟩
      simp [abs_fin, Flt.mul, hc, Flt.sub, Flt.add, max2, min2, Flt.lt]
  obtain ⟨x, ex, hb⟩ := hx
  have e : vecElem (.fin o) (.fin t) lb ub c = min2 (max2 (.fin x) lb) ub := by
    simp only [vecElem]; rw [← ex]
  rw [e]
  refine ⟨⟨clip_ge _ rfl h, clip_le _ rfl (isNan_of_le_left h) (isNan_of_le_right h)⟩, fun ho => ?_⟩
  obtain ⟨y, ey, _, _, hy⟩ := clip_between x o ho.1 ho.2
  exact ⟨y, ey, fun c' hc' => le_trans hy (hb c' hc')⟩

/-- What `modify_vector` computes, element by element. -/
theorem modifyVector_eq (original target : List (Flt K)) (lb ub : Limit K) (mc : Option (Limit K))
    (hlen : target.length = original.length) (hlb : lb.fits original.length = true)
    (hub : ub.fits original.length = true) (hmc : ∀ c, mc = some c → c.fits original.length = true) :
    ∃ r, modifyVector original target (some lb) (some ub) mc = .ok r ∧ r.length = original.length ∧
      ∀ i, ∀ o t : Flt K, original[i]? = some o → target[i]? = some t →
        r[i]? = some (vecElem o t (lb.at i) (ub.at i) (mc.map (·.at i))) := by
  have h1 : ∃ x, modifyVectorChangePart original target mc = .ok x ∧ x.length = original.length ∧
      ∀ i, ∀ o t : Flt K, original[i]? = some o → target[i]? = some t →
        x[i]? = some (match mc.map (·.at i) with
          | none => t
          | some c => min2 (max2 t (Flt.sub o (Flt.mul (Flt.abs o) c))) (Flt.add o (Flt.mul (Flt.abs o) c))) := by
    cases mc with
    | none => exact ⟨target, rfl, hlen, fun i o t _ ht => ht⟩
    | some c =>
      refine ⟨_, (if_neg (by simp [hlen])).trans (if_neg (by simp [hmc c rfl])), by simp [hlen], ?_⟩
      intro i o t ho ht
      obtain ⟨hi, _⟩ := List.getElem?_eq_some_iff.mp ho
      rw [List.getElem?_map, hlen, List.getElem?_range hi]
      simp [List.getD_eq_getElem?_getD, ho, ht]
  obtain ⟨x, ex, hxl, hx⟩ := h1
  refine ⟨(List.range x.length).map fun i => min2 (max2 (x.getD i .nan) (lb.at i)) (ub.at i), ?_, by simp [hxl], ?_⟩
  · simp [modifyVector, ex, bind, Except.bind, modifyVectorBounds, hxl, hlb, hub]
  · intro i o t ho ht
    obtain ⟨hi, _⟩ := List.getElem?_eq_some_iff.mp ho
    rw [List.getElem?_map, hxl, List.getElem?_range hi]
    simp only [Option.map_some, List.getD_eq_getElem?_getD, hx i o t ho ht, Option.getD_some, vecElem]

/-- **C46**, one call (partial: an infinite `max_change` is excluded for elements whose old value is 0, see
`C46_violated_zero_stdev`). For finite vectors of equal length, any lower bound not above the upper bound, given as scalars or
vectors of that length, and an absent, non-negative or infinite `max_change`: the result lies within the bounds, and within
the change limit wherever the original lies within the bounds. -/
theorem C46_modify_vector_partial (original target : List K) (lb ub : Limit K) (mc : Option (Limit K))
    (hlen : target.length = original.length) (hlb : lb.fits original.length = true)
    (hub : ub.fits original.length = true) (hmc : ∀ c, mc = some c → c.fits original.length = true)
    (hle : ∀ i < original.length, Flt.le (lb.at i) (ub.at i) = true)
    (hok : ∀ i o, original[i]? = some o → ChangeOk o (mc.map (·.at i))) :
    ∃ r, modifyVector (original.map .fin) (target.map .fin) (some lb) (some ub) mc = .ok r ∧
      r.length = original.length ∧
      ∀ i, ∀ o, original[i]? = some o → ∃ v, r[i]? = some v ∧ Flt.le (lb.at i) v = true ∧ Flt.le v (ub.at i) = true ∧
        (InBounds (lb.at i) (ub.at i) o → ∃ x, v = .fin x ∧ InBand o (mc.map (·.at i)) x) := by
  obtain ⟨r, e, hl, h⟩ := modifyVector_eq (original.map .fin) (target.map .fin) lb ub mc (by simpa using hlen)
    (by simpa using hlb) (by simpa using hub) (by simpa using hmc)
  refine ⟨r, e, by simpa using hl, fun i o ho => ?_⟩
  obtain ⟨hi, _⟩ := List.getElem?_eq_some_iff.mp ho
  have ht : target[i]? = some (target[i]'(hlen ▸ hi)) := List.getElem?_eq_getElem _
  obtain ⟨s1, s2⟩ := vecElem_spec o (target[i]'(hlen ▸ hi)) (hle i hi) (hok i o ho)
  exact ⟨_, h i (.fin o) (.fin _) (by simp [ho]) (by rw [List.getElem?_map, ht]; rfl), s1.1, s1.2, s2⟩

/-- The hypotheses are met and every limit matters. -/
example : modifyVector (K := ℚ) [.fin 10, .fin 10, .fin 1] [.fin 20, .fin 3, .fin 100] (some (.tensor [.fin 0, .fin 9, .fin 5]))
    (some (.scalar (.fin 11))) (some (.tensor [.fin (1/5), .fin (1/5), .pinf])) = .ok [.fin 11, .fin 9, .fin 11] := by
  decide +kernel

example : ∀ i o, ([10, 10, 1] : List ℚ)[i]? = some o →
    ChangeOk o ((some (Limit.scalar (.pinf : Flt ℚ))).map (·.at i)) := by
  intro i o h
  have : o = 10 ∨ o = 10 ∨ o = 1 := by simpa using List.mem_of_getElem? h
  show o ≠ 0
  rcases this with rfl | rfl | rfl <;> norm_num

/-- Only one of the two bounds is refused. -/
theorem C46_single_bound_refused (original target : List (Flt K)) (l : Limit K) :
    modifyVector original target (some l) none none = .error .valueError ∧
    modifyVector original target none (some l) none = .error .valueError := ⟨rfl, rfl⟩

/-- Non-triviality of `C46_single_bound_refused`: with both bounds the same call is accepted. -/
example : modifyVector (K := ℚ) [.fin 1] [.fin 5] (some (.scalar (.fin 0))) (some (.scalar (.fin 2))) none = .ok [.fin 2] := by
  decide +kernel

/-! ### Histories of `tell` -/

/-- A state of the functional PGPE or CEM on which the guarantee rests: vectors of equal length, finite lower bounds (as the
default 0) not above the upper bounds, non-negative change limits; where the change limit is infinite (the default of the
CEM) the lower bound is positive; and a finite standard deviation inside the bounds. -/
structure Spec.FuncOk (s : FuncState K) (stdev : List K) : Prop where
  eq : s.stdev = stdev.map .fin
  lenMin : s.stdevMin.length = stdev.length
  lenMax : s.stdevMax.length = stdev.length
  lenChange : s.stdevMaxChange.length = stdev.length
  ok : ∀ (i : Nat) (x : K), stdev[i]? = some x → ∃ (l : K) (u c : Flt K), s.stdevMin[i]? = some (.fin l) ∧ s.stdevMax[i]? = some u ∧
    s.stdevMaxChange[i]? = some c ∧ InBounds (.fin l) u x ∧
    ((∃ c', c = .fin c' ∧ 0 ≤ c') ∨ (c = .pinf ∧ 0 < l))

theorem funcTell_step (lr : K) (s : FuncState K) (stdev : List K) (hs : FuncOk s stdev) (grad : List K)
    (hg : grad.length = stdev.length) :
    ∃ new : List K, funcTell (.fin lr) s (grad.map .fin) = .ok { s with stdev := new.map .fin } ∧
      new.length = stdev.length ∧ FuncOk { s with stdev := new.map .fin } new ∧
      ∀ (i : Nat) (x y : K), stdev[i]? = some x → new[i]? = some y → InBand x s.stdevMaxChange[i]? y := by
  have ht : List.zipWith (fun s g => Flt.add s (Flt.mul (.fin lr) g)) s.stdev (grad.map .fin) =
      (List.zipWith (fun s g => s + lr * g) stdev grad).map .fin := by
    rw [hs.eq]
    simp only [List.zipWith_map_left, List.zipWith_map_right, List.map_zipWith]
    rfl
  have hle : ∀ i < stdev.length, Flt.le ((Limit.tensor s.stdevMin).at i) ((Limit.tensor s.stdevMax).at i) = true := by
    intro i hi
    obtain ⟨l, u, c, e1, e2, e3, hb, _⟩ := hs.ok i _ (List.getElem?_eq_getElem hi)
    simp only [Limit.at, List.getD_eq_getElem?_getD, e1, e2, Option.getD_some]
    exact le_trans' hb.1 hb.2
  have hok : ∀ (i : Nat) (o : K), stdev[i]? = some o →
      ChangeOk o ((some (Limit.tensor s.stdevMaxChange)).map (·.at i)) := by
    intro i o ho
    obtain ⟨l, u, c, e1, e2, e3, hb, hc⟩ := hs.ok i _ ho
    simp only [Option.map_some, Limit.at, List.getD_eq_getElem?_getD, e3, Option.getD_some]
    rcases hc with ⟨c', rfl, hc'⟩ | ⟨rfl, hl⟩
    · exact hc'
    · have := fin_le.mp hb.1
      exact ne_of_gt (lt_of_lt_of_le hl this)
  obtain ⟨r, e, hl, h⟩ := C46_modify_vector_partial stdev (List.zipWith (fun s g => s + lr * g) stdev grad)
    (.tensor s.stdevMin) (.tensor s.stdevMax) (some (.tensor s.stdevMaxChange)) (by simp [hg])
    (by simp [Limit.fits, hs.lenMin]) (by simp [Limit.fits, hs.lenMax])
    (by intro c hc; injection hc with hc; subst hc; simp [Limit.fits, hs.lenChange]) hle hok
  have hall : ∀ (i : Nat) (x : K), stdev[i]? = some x → ∃ y l u, r[i]? = some (.fin y) ∧ s.stdevMin[i]? = some (.fin l) ∧
      s.stdevMax[i]? = some u ∧ InBounds (.fin l) u y ∧ InBand x s.stdevMaxChange[i]? y := by
    intro i x hx
    obtain ⟨v, ev, h1, h2, h3⟩ := h i x hx
    obtain ⟨l, u, c, e1, e2, e3, hb, _⟩ := hs.ok i x hx
    simp only [Limit.at, List.getD_eq_getElem?_getD, e1, e2, e3, Option.getD_some, Option.map_some] at h1 h2 h3
    obtain ⟨y, rfl, hy⟩ := h3 hb
    exact ⟨y, l, u, ev, e1, e2, ⟨h1, h2⟩, by rw [e3]; exact hy⟩
  have hx : ∃ new : List K, r = new.map .fin := by
    have : ∀ v ∈ r, ∃ x : K, Flt.fin x = v := by
      intro v hv
      obtain ⟨i, hi, ei⟩ := List.getElem_of_mem hv
      obtain ⟨y, l, u, ey, _⟩ := hall i _ (List.getElem?_eq_getElem (hl ▸ hi))
      rw [List.getElem?_eq_getElem hi, ei] at ey
      exact ⟨y, (Option.some.inj ey).symm⟩
    clear e hl h hall
    induction r with
    | nil => exact ⟨[], rfl⟩
    | cons v r ih =>
      obtain ⟨x, rfl⟩ := this v (by simp)
      obtain ⟨s, rfl⟩ := ih (fun v hv => this v (by simp [hv]))
      exact ⟨x :: s, rfl⟩
  obtain ⟨new, rfl⟩ := hx
  have hn : new.length = stdev.length := by simpa using hl
  refine ⟨new, ?_, hn, ⟨rfl, by simpa [hn] using hs.lenMin, by simpa [hn] using hs.lenMax,
    by simpa [hn] using hs.lenChange, ?_⟩, ?_⟩
  · simp only [funcTell, ht, bind, Except.bind, pure, Except.pure]
    rw [hs.eq, e]
  · intro i y hy
    obtain ⟨hi, _⟩ := List.getElem?_eq_some_iff.mp hy
    have hx : stdev[i]? = some (stdev[i]'(hn ▸ hi)) := List.getElem?_eq_getElem _
    obtain ⟨y', l, u, ey, e1, e2, hb, _⟩ := hall i _ hx
    simp only [List.getElem?_map, hy, Option.map_some, Option.some.injEq, Flt.fin.injEq] at ey
    subst ey
    obtain ⟨l', u', c, e1', e2', e3, _, hc⟩ := hs.ok i _ hx
    rw [e1] at e1'; injection e1' with e1'; injection e1' with e1'; subst e1'
    exact ⟨l, u, c, e1, e2, e3, hb, hc⟩
  · intro i x y hx hy
    obtain ⟨y', l, u, ey, e1, e2, hb, hband⟩ := hall i _ hx
    simp only [List.getElem?_map, hy, Option.map_some, Option.some.injEq, Flt.fin.injEq] at ey
    subst ey
    exact hband

/-- **C46**, histories (partial: with an infinite `stdev_max_change`, as by default in the CEM, the lower bound has to be
positive, see `C46_violated_zero_stdev`). Starting inside its bounds, the standard deviation of the functional PGPE and CEM
stays finite and inside the bounds over every history of `tell` with finite gradients, no `tell` fails and the settings do not
change. -/
theorem C46_tell_history_partial (lr : K) (grads : List (List K)) :
    ∀ (s : FuncState K) (stdev : List K), FuncOk s stdev → (∀ g ∈ grads, g.length = stdev.length) →
    ∃ new : List K, funcRun (.fin lr) s (grads.map (List.map .fin)) = .ok { s with stdev := new.map .fin } ∧
      new.length = stdev.length ∧
      ∀ (i : Nat) (y : K), new[i]? = some y → ∃ l u, s.stdevMin[i]? = some l ∧ s.stdevMax[i]? = some u ∧ InBounds l u y := by
  have key : ∀ (s : FuncState K) (stdev : List K), FuncOk s stdev → (∀ g ∈ grads, g.length = stdev.length) →
      ∃ new : List K, funcRun (.fin lr) s (grads.map (List.map .fin)) = .ok { s with stdev := new.map .fin } ∧
      new.length = stdev.length ∧ FuncOk { s with stdev := new.map .fin } new := by
    induction grads with
    | nil =>
      intro s stdev hs _
      refine ⟨stdev, ?_, rfl, ?_⟩
      · cases s; simp only [List.map_nil, funcRun]; rw [← hs.eq]
      · exact ⟨rfl, hs.lenMin, hs.lenMax, hs.lenChange, hs.ok⟩
    | cons g gs ih =>
      intro s stdev hs hg
      obtain ⟨new, e, hl, hok, _⟩ := funcTell_step lr s stdev hs g (hg g (by simp))
      obtain ⟨new', e', hl', hok'⟩ := ih _ new hok (fun g' hg' => by rw [hl]; exact hg g' (by simp [hg']))
      refine ⟨new', ?_, by omega, hok'⟩
      simp only [List.map_cons, funcRun, e, bind, Except.bind]
      exact e'
  intro s stdev hs hg
  obtain ⟨new, e, hl, hok⟩ := key s stdev hs hg
  refine ⟨new, e, hl, fun i y hy => ?_⟩
  obtain ⟨l, u, c, e1, e2, _, hb, _⟩ := hok.ok i y hy
  exact ⟨_, u, e1, e2, hb⟩

/-- PGPE's defaults (lower bound 0, no upper bound, change limit 0.2) meet the hypotheses. -/
example : ∃ s, funcInit (K := ℚ) [.fin 1, .fin 2] none none (some (.scalar (.fin (1/5)))) = .ok s ∧ FuncOk s [1, 2] := by
  refine ⟨⟨[.fin 1, .fin 2], [.fin 0, .fin 0], [.pinf, .pinf], [.fin (1/5), .fin (1/5)]⟩, rfl, rfl, rfl, rfl, rfl, ?_⟩
  intro i x hx
  rcases i with _ | _ | i
  · simp only [List.getElem?_cons_zero, Option.some.injEq] at hx; subst hx
    exact ⟨0, .pinf, .fin (1/5), rfl, rfl, rfl, ⟨by decide +kernel, rfl⟩, .inl ⟨_, rfl, by norm_num⟩⟩
  · simp only [zero_add, List.getElem?_cons_succ, List.getElem?_cons_zero, Option.some.injEq] at hx; subst hx
    exact ⟨0, .pinf, .fin (1/5), rfl, rfl, rfl, ⟨by decide +kernel, rfl⟩, .inl ⟨_, rfl, by norm_num⟩⟩
  · simp at hx

example : (funcRun (K := ℚ) (.fin 1) ⟨[.fin 1], [.fin (9/10)], [.fin 2], [.fin (1/5)]⟩ [[.fin (-7)], [.fin 7], [.fin 7]]).map
    (·.stdev) = .ok [.fin (162/125)] := by decide +kernel

/-- **C46 is violated** with the defaults of the functional CEM (no `stdev_min`, no `stdev_max_change`): the gradient that
brings an element of the standard deviation to 0 (all elites agree on it) is accepted, and the next `tell` makes it NaN,
although the class-based CEM (`modify_tensor` without limits) keeps it 0: the change limit is computed as `0 * inf`. -/
theorem C46_violated_zero_stdev :
    ∃ s : FuncState ℚ, funcInit [.fin 1] none none none = .ok s ∧
      (funcRun (.fin 1) s [[.fin (-1)]]).map (·.stdev) = .ok [.fin 0] ∧
      (funcRun (.fin 1) s [[.fin (-1)], [.fin 0]]).map (·.stdev) = .ok [.nan] ∧
      stdevRun ⟨none, none, none⟩ (.additive (.fin 1)) [.fin (1 : ℚ)] [[.fin (-1)], [.fin 0]] =
        [[.fin 1], [.fin 0], [.fin 0]] := by
  refine ⟨_, rfl, ?_, ?_, ?_⟩ <;> decide +kernel

end EvoTorch.Modify
