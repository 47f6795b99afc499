import Verif.Model.SearchAgree
import Verif.Props.ModifyVector
import Verif.Props.Optimizers
/-!
C104: the class-based and the functional searches visit the same distributions.
-/
namespace EvoTorch.SearchAgree
open EvoTorch.Modify EvoTorch.Modify.Spec Flt
variable {K σ τ C G D : Type} [Field K] [LinearOrder K] [IsStrictOrderedRing K]

/-! ### Clipping to two ranges at once, or to one after the other -/

theorem max2_fin (a b : K) : max2 (Flt.fin a) (Flt.fin b) = .fin (max a b) := by
  simp only [max2, lt, decide_eq_true_eq]
  split
  · rw [max_eq_right (le_of_lt ‹_›)]
  · rw [max_eq_left (not_lt.1 ‹_›)]

theorem min2_fin (a b : K) : min2 (Flt.fin a) (Flt.fin b) = .fin (min a b) := by
  simp only [min2, lt, decide_eq_true_eq]
  split
  · rw [min_eq_right (le_of_lt ‹_›)]
  · rw [min_eq_left (not_lt.1 ‹_›)]

theorem max2_ninf_left (a : K) : max2 (.ninf) (Flt.fin a) = .fin a := rfl
theorem max2_ninf_right (a : K) : max2 (Flt.fin a) (.ninf) = .fin a := rfl
theorem min2_pinf_left (a : K) : min2 (.pinf) (Flt.fin a) = .fin a := rfl
theorem min2_pinf_right (a : K) : min2 (Flt.fin a) (.pinf) = .fin a := rfl

theorem clip_clip (t o : K) {L U lb ub : Flt K} (h1 : le L (.fin o) = true) (h2 : le (.fin o) U = true) (h3 : le lb (.fin o) = true)
    (h4 : le (.fin o) ub = true) :
    min2 (max2 (.fin t) (max2 lb L)) (min2 ub U) = min2 (max2 (min2 (max2 (.fin t) L) U) lb) ub := by
  have hL : L = .ninf ∨ ∃ l, L = .fin l ∧ l ≤ o := by cases L <;> simp_all [le]
  have hlb : lb = .ninf ∨ ∃ l, lb = .fin l ∧ l ≤ o := by cases lb <;> simp_all [le]
  have hU : U = .pinf ∨ ∃ l, U = .fin l ∧ o ≤ l := by cases U <;> simp_all [le]
  have hub : ub = .pinf ∨ ∃ l, ub = .fin l ∧ o ≤ l := by cases ub <;> simp_all [le]
  have hn : max2 (.ninf : Flt K) .ninf = .ninf := rfl
  have hp : min2 (.pinf : Flt K) .pinf = .pinf := rfl
  rcases hL with rfl | ⟨L, rfl, hL⟩ <;> rcases hlb with rfl | ⟨lb, rfl, hlb⟩ <;> rcases hU with rfl | ⟨U, rfl, hU⟩ <;> rcases hub with rfl | ⟨ub, rfl, hub⟩ <;>
    simp only [max2_fin, min2_fin, max2_ninf_left, max2_ninf_right, min2_pinf_left, min2_pinf_right, hn, hp, Flt.fin.injEq] <;>
    try simp only [max_min_distrib_right, max_eq_left (hlb.trans hU)]
  all_goals ac_rfl

/-- `modify_tensor` and `modify_vector` agree on an element which lies within the bounds. -/
theorem elem_agree (o t : K) {lb ub : Flt K} (mc : Option (Flt K)) (hb : InBounds lb ub o)
    (hmc : mc = none ∧ o ≠ 0 ∨ ∃ c, mc = some (.fin c) ∧ 0 ≤ c) :
    modifyElem (.fin o) (.fin t) lb ub mc = vecElem (.fin o) (.fin t) lb ub (some (mc.getD .pinf)) := by
  rcases hmc with ⟨rfl, h0⟩ | ⟨c, rfl, hc⟩
  · simp only [modifyElem, vecElem, Option.getD_none]
    have ha : Flt.mul (Flt.abs (.fin o)) (.pinf : Flt K) = .pinf := by
      rw [abs_fin]; simp [Flt.mul, h0]
    simp only [ha, Flt.sub, Flt.add, max2_ninf_right, min2_pinf_right]
  · have hpos := mul_nonneg (abs_nonneg o) hc
    simp only [modifyElem, vecElem, Option.getD_some, allowed_fin, Flt.sub, Flt.add]
    exact clip_clip t o (fin_le.2 (by linarith)) (fin_le.2 (by linarith)) hb.1 hb.2

/-- Without a minimum the class has no lower limit where the functional search has 0: this makes no difference if the change is limited to 1. -/
theorem elem_agree_none (o t c : K) {ub : Flt K} (hb : InBounds .ninf ub o) (h0 : 0 ≤ o) (hc : 0 ≤ c) (h1 : c ≤ 1) :
    modifyElem (.fin o) (.fin t) .ninf ub (some (.fin c)) = vecElem (.fin o) (.fin t) (.fin 0) ub (some (.fin c)) := by
  have hpos := mul_nonneg (abs_nonneg o) hc
  have hle : |o| * c ≤ o := by rw [abs_of_nonneg h0]; nlinarith
  have e : max2 (.ninf) (Flt.fin (o - |o| * c)) = max2 (.fin 0) (.fin (o - |o| * c)) := by rw [max2_ninf_left, max2_fin, max_eq_right (by linarith)]
  simp only [modifyElem, vecElem, allowed_fin, Flt.sub, Flt.add, e]
  exact clip_clip t o (fin_le.2 (by linarith)) (fin_le.2 (by linarith)) (fin_le.2 h0) hb.2

/-! ### Specification and proof -/

/-- The settings for which both searches mean the same. If `stdev_min` is given then it is positive unless `stdev_max_change` is given too; if it is not given (the default) then
`stdev_max_change` is given (its default is 0.2), and is at most 1. -/
structure Same (n : Nat) (mn mx mc : Option (Limit K)) : Prop where
  valid : ValidControl n ⟨mn, mx, mc⟩
  pos : mn ≠ none → mc = none → ∀ i < n, lt (.fin 0) (lowerAt mn i) = true
  small : mn = none → mc ≠ none ∧ ∀ i < n, ∃ c : K, changeAt mc i = some (.fin c) ∧ c ≤ 1

/-- The initial standard deviation lies within the limits, and is not negative. -/
structure GoodInit (n : Nat) (mn mx mc : Option (Limit K)) (sigma : List K) : Prop where
  len : sigma.length = n
  within : Within ⟨mn, mx, mc⟩ sigma
  nonneg : mn = none → ∀ x ∈ sigma, 0 ≤ x

/-- The functional state carries the same limits. -/
structure Rel (n : Nat) (mn mx mc : Option (Limit K)) (fs : FuncState K) (sigma : List K) : Prop where
  stdev : fs.stdev = sigma.map .fin
  lmin : fs.stdevMin.length = n ∧ ∀ i < n, fs.stdevMin.getD i .nan = limitAt (.fin 0) mn i
  lmax : fs.stdevMax.length = n ∧ ∀ i < n, fs.stdevMax.getD i .nan = upperAt mx i
  lmc : fs.stdevMaxChange.length = n ∧ ∀ i < n, fs.stdevMaxChange.getD i .nan = (changeAt mc i).getD .pinf
  good : GoodInit n mn mx mc sigma

theorem init_rel (n : Nat) (mn mx mc : Option (Limit K)) (h : Same n mn mx mc) (sigma : List K)
    (hw : GoodInit n mn mx mc sigma) : ∃ fs, funcInit (sigma.map .fin) mn mx mc = .ok fs ∧ Rel n mn mx mc fs sigma := by
  have key : ∀ (l : Option (Limit K)) (dflt : Flt K), Valid n l → ∃ xs, asVectorLikeCenter n dflt l = .ok xs ∧ xs.length = n ∧ ∀ i < n, xs.getD i .nan = limitAt dflt l i := by
    intro l dflt hv
    match l, hv with
    | none, _ => exact ⟨List.replicate n dflt, rfl, by simp, fun i hi => by simp [List.getD_eq_getElem?_getD, hi, limitAt]⟩
    | some (.scalar x), _ => exact ⟨List.replicate n x, rfl, by simp, fun i hi => by simp [List.getD_eq_getElem?_getD, hi, limitAt]⟩
    | some (.tensor xs), hv => exact ⟨xs, by simp [asVectorLikeCenter, hv.1], hv.1, fun i hi => rfl⟩
  obtain ⟨a, ha, ha1, ha2⟩ := key mn (.fin 0) h.valid.lo
  obtain ⟨b, hb, hb1, hb2⟩ := key mx .pinf h.valid.hi
  obtain ⟨c, hc, hc1, hc2⟩ := key mc .pinf h.valid.mc
  refine ⟨⟨sigma.map .fin, a, b, c⟩, ?_, rfl, ⟨ha1, ha2⟩, ⟨hb1, hb2⟩, ⟨hc1, fun i hi => ?_⟩, hw⟩
  · simp only [funcInit, List.length_map, hw.len, ha, hb, hc]; rfl
  · rw [hc2 i hi]
    match mc with
    | none => rfl
    | some (.scalar x) => rfl
    | some (.tensor xs) => rfl

theorem step_agree (n : Nat) (mn mx mc : Option (Limit K)) (h : Same n mn mx mc) (lr : K) (fs : FuncState K) (sigma grad : List K) (hr : Rel n mn mx mc fs sigma)
    (hg : grad.length = n) : ∃ new : List K, updateStdev ⟨mn, mx, mc⟩ (.additive (.fin lr)) (sigma.map .fin) (grad.map .fin) = .ok (new.map .fin) ∧
      funcTell (.fin lr) fs (grad.map .fin) = .ok { fs with stdev := new.map .fin } ∧ Rel n mn mx mc { fs with stdev := new.map .fin } new := by
  have hc : ValidControl sigma.length (⟨mn, mx, mc⟩ : Control K) := by rw [hr.good.len]; exact h.valid
  obtain ⟨new, e1, l1, w1, sc⟩ := updateStdev_step (Rule.additive_finite lr) hc (by rw [hg, hr.good.len]) hr.good.within
  have hgiven : (mn.isSome || mx.isSome || mc.isSome) = true := by
    rcases Option.eq_none_or_eq_some mn with hmn | ⟨mn', hmn⟩
    · have := Option.isSome_iff_ne_none.2 (h.small hmn).1
      simp [this]
    · simp [hmn]
  have hnonneg : mn = none → ∀ x ∈ new, 0 ≤ x := by
    intro hmn x hx
    obtain ⟨i, hi, rfl⟩ := List.getElem_of_mem hx
    have hi' : i < sigma.length := by rw [← l1]; exact hi
    obtain ⟨c, hc1, hc2⟩ := (h.small hmn).2 i (by rw [← hr.good.len]; exact hi')
    have h3 := sc i sigma[i] new[i] (List.getElem?_eq_getElem hi') (List.getElem?_eq_getElem hi) c hc1
    have h4 := hr.good.nonneg hmn _ (List.getElem_mem hi')
    rw [abs_of_nonneg h4] at h3
    have h5 := (abs_le.1 h3).1
    nlinarith
  refine ⟨new, e1, ?_, ⟨rfl, hr.lmin, hr.lmax, hr.lmc, ⟨by rw [l1, hr.good.len], w1, hnonneg⟩⟩⟩
  -- the target of both
  let target : List K := List.zipWith (fun s g => s + lr * g) sigma grad
  have hlent : target.length = sigma.length := by simp [target, hg, hr.good.len]
  have htc : (Rule.additive (.fin lr)).target (sigma.map .fin) (grad.map .fin) = target.map .fin := by
    simp only [Rule.target, List.zipWith_map_left, List.zipWith_map_right, target, List.map_zipWith]; rfl
  have htf : List.zipWith (fun s g => Flt.add s (Flt.mul (.fin lr) g)) fs.stdev (grad.map .fin) = target.map .fin := by
    rw [hr.stdev]; exact htc
  obtain ⟨rt, et, lt', gt⟩ := modifyTensor_eq (sigma.map .fin) (target.map .fin) mn mx mc false (by simp [hlent]) (by simpa using hc.lo) (by simpa using hc.hi)
    (by simpa using hc.mc)
  have hnew : new.map .fin = rt := by
    have : updateStdev ⟨mn, mx, mc⟩ (.additive (.fin lr)) (sigma.map .fin) (grad.map .fin) = .ok rt := by
      simp only [updateStdev, htc, hgiven, if_true, et, Except.map]
    rw [this] at e1
    exact (Except.ok.inj e1).symm
  obtain ⟨rv, ev, lv, gv⟩ := modifyVector_eq (sigma.map .fin) (target.map .fin) (.tensor fs.stdevMin) (.tensor fs.stdevMax) (some (.tensor fs.stdevMaxChange)) (by simp [hlent])
    (by simp [Limit.fits, hr.lmin.1, hr.good.len]) (by simp [Limit.fits, hr.lmax.1, hr.good.len]) (by intro c hc; cases hc; simp [Limit.fits, hr.lmc.1, hr.good.len])
  have hrv : rv = rt := by
    refine List.ext_getElem? fun i => ?_
    by_cases hi : i < sigma.length
    · have hin : i < n := by rw [← hr.good.len]; exact hi
      have ho : (sigma.map Flt.fin)[i]? = some (.fin sigma[i]) := by simp [hi]
      have ht : (target.map Flt.fin)[i]? = some (.fin (target[i]'(by rw [hlent]; exact hi))) := by rw [List.getElem?_map, List.getElem?_eq_getElem (by rw [hlent]; exact hi)]; rfl
      rw [gv i _ _ ho ht, (gt i _ _ ho ht).2 (by rintro ⟨a, b, c⟩; simp [a, b, c] at hgiven)]
      have hinb := hr.good.within i sigma[i] (List.getElem?_eq_getElem hi)
      simp only [Limit.at, Option.map_some, hr.lmin.2 i hin, hr.lmax.2 i hin, hr.lmc.2 i hin]
      rcases Option.eq_none_or_eq_some mn with hmn | ⟨mn', hmn⟩
      · obtain ⟨c, hc1, hc2⟩ := (h.small hmn).2 i hin
        subst hmn
        rw [hc1]
        exact (congrArg some (elem_agree_none sigma[i] _ c hinb (hr.good.nonneg rfl _ (List.getElem_mem hi)) (hc.nonneg i hi c hc1) hc2)).symm
      · have hl : limitAt (.fin 0) mn i = lowerAt mn i := by rw [hmn]; cases mn' <;> rfl
        rw [hl]
        have hmc : changeAt mc i = none ∧ sigma[i] ≠ 0 ∨ ∃ c, changeAt mc i = some (.fin c) ∧ 0 ≤ c := by
          have hval := hc.mc
          have hfin := hc.fin
          have hnn := hc.nonneg i hi
          match mc, h.pos, hval, hfin, hnn with
          | none, hpos, _, _, _ =>
            left
            refine ⟨rfl, fun h0 => ?_⟩
            have h1 := hpos (by rw [hmn]; simp) rfl i hin
            have h2 := hinb.1
            rw [h0] at h2
            change le (lowerAt mn i) (.fin 0) = true at h2
            generalize lowerAt mn i = q at h1 h2
            cases q <;> simp_all [lt, le]
            exact absurd (lt_of_lt_of_le h1 h2) (_root_.lt_irrefl _)
          | some (.scalar x), _, _, hfin, hnn =>
            obtain ⟨c, rfl⟩ := hfin
            exact Or.inr ⟨c, rfl, hnn c rfl⟩
          | some (.tensor xs), _, hval, hfin, hnn =>
            have hx : i < xs.length := by rw [hval.1]; exact hi
            obtain ⟨c, hcc⟩ := hfin xs[i] (List.getElem_mem hx)
            have hch : changeAt (some (.tensor xs)) i = some (.fin c) := by
              simp [changeAt, List.getD_eq_getElem?_getD, hx, hcc]
            exact Or.inr ⟨c, hch, hnn c hch⟩
        rw [elem_agree sigma[i] _ (changeAt mc i) hinb hmc]
    · rw [List.getElem?_eq_none (by rw [lv, List.length_map]; omega), List.getElem?_eq_none (by rw [lt', List.length_map]; omega)]
  simp only [funcTell, htf]
  rw [hr.stdev, ev, hrv, ← hnew]
  rfl

theorem runs_agree (n : Nat) (mn mx mc : Option (Limit K)) (h : Same n mn mx mc) (lr : K) (O₁ : Optim σ C G) (O₂ : Optim τ C G)
    (grad : C → List (Flt K) → D → G × List K) (hg : ∀ c s x, (grad c s x).2.length = n) (data : List D) :
    ∀ (s₁ : σ) (s₂ : τ), (∀ gs : List G, O₁.ask (gs.foldl O₁.tell s₁) = O₂.ask (gs.foldl O₂.tell s₂)) → ∀ (fs : FuncState K) (sigma : List K), Rel n mn mx mc fs sigma →
    ∃ l, l.length = data.length + 1 ∧ classRun O₁ grad ⟨mn, mx, mc⟩ lr (s₁, sigma.map .fin) data = .ok l ∧ funcRun O₂ grad lr (s₂, fs) data = .ok l := by
  induction data with
  | nil =>
    intro s₁ s₂ hO fs sigma hr
    refine ⟨[(O₁.ask s₁, sigma.map .fin)], rfl, rfl, ?_⟩
    have := hO []
    simp only [List.foldl_nil] at this
    simp only [funcRun, hr.stdev, this]
  | cons x rest ih =>
    intro s₁ s₂ hO fs sigma hr
    have hask := hO []
    simp only [List.foldl_nil] at hask
    obtain ⟨new, u1, u2, hr'⟩ := step_agree n mn mx mc h lr fs sigma (grad (O₁.ask s₁) (sigma.map .fin) x).2 hr (hg _ _ _)
    obtain ⟨l, hl, c1, c2⟩ := ih (O₁.tell s₁ (grad (O₁.ask s₁) (sigma.map .fin) x).1) (O₂.tell s₂ (grad (O₁.ask s₁) (sigma.map .fin) x).1)
      (fun gs => hO ((grad (O₁.ask s₁) (sigma.map .fin) x).1 :: gs)) _ new hr'
    refine ⟨(O₁.ask s₁, sigma.map .fin) :: l, by simp [hl], ?_, ?_⟩
    · simp only [classRun, classStep, u1, bind, Except.bind, pure, Except.pure, c1]
    · simp only [funcRun, funcStep, hr.stdev, ← hask, u2, bind, Except.bind, pure, Except.pure, c2]

/-- **C104**, CEM. With the same center, standard deviation and limits, the class and the functional search sample from the same distributions in all generations, for every
population, all evaluations and every way of computing gradients from them. Restricted to the settings `Same`, and to initial standard deviations within the limits. -/
theorem C104_cem_partial (n d : Nat) (mn mx mc : Option (Limit K)) (h : Same n mn mx mc) (center : Fin d → K) (sigma : List K)
    (hw : GoodInit n mn mx mc sigma) (grad : (Fin d → K) → List (Flt K) → D → (Fin d → K) × List K) (hg : ∀ c s x, (grad c s x).2.length = n) (data : List D) :
    ∃ fs l, funcInit (sigma.map .fin) mn mx mc = .ok fs ∧ l.length = data.length + 1 ∧
      classRun (classPlain d K) grad ⟨mn, mx, mc⟩ 1 (center, sigma.map .fin) data = .ok l ∧ funcRun (funcPlain d K) grad 1 (center, fs) data = .ok l := by
  obtain ⟨fs, e, hr⟩ := init_rel n mn mx mc h sigma hw
  have hO : (classPlain d K).tell = (funcPlain d K).tell := by funext mu g j; simp [classPlain, funcPlain]
  obtain ⟨l, h1, h2, h3⟩ := runs_agree n mn mx mc h 1 (classPlain d K) (funcPlain d K) grad hg data center center (fun gs => by rw [hO]; rfl) fs sigma hr
  exact ⟨fs, l, e, h1, h2, h3⟩

open EvoTorch.Optimizers in
/-- **C104**, PGPE with its default optimiser ClipUp (the center may become undefined (NaN) in both at the same time). -/
theorem C104_pgpe_partial (n d : Nat) (mn mx mc : Option (Limit ℝ)) (h : Same n mn mx mc) (center : Fin d → ℝ) (sigma : List ℝ)
    (hw : GoodInit n mn mx mc sigma) (stepsize momentum lr : ℝ) (maxSpeed : Option ℝ) (c : ClipUp d) (hc : ClipUp.create d stepsize momentum maxSpeed = .ok c)
    (grad : NVec d → List (Flt ℝ) → D → (Fin d → ℝ) × List ℝ) (hg : ∀ c s x, (grad c s x).2.length = n) (data : List D) :
    ∃ fs os l, funcInit (sigma.map .fin) mn mx mc = .ok fs ∧ clipup center momentum (some stepsize) maxSpeed = .ok os ∧ l.length = data.length + 1 ∧
      classRun (classClipUp d) grad ⟨mn, mx, mc⟩ lr ((c, some center), sigma.map .fin) data = .ok l ∧
      funcRun (funcClipUp d) grad lr (os, fs) data = .ok l := by
  obtain ⟨fs, e, hr⟩ := init_rel n mn mx mc h sigma hw
  obtain ⟨os, eo, _⟩ := C53_clipup stepsize momentum maxSpeed c hc center []
  have hlast1 : ∀ (gs : List (Fin d → ℝ)) (c : ClipUp d) (x : NVec d), (c.centers x gs).getLast? = some ((classClipUp d).ask (gs.foldl (classClipUp d).tell (c, x))) := by
    intro gs
    induction gs with
    | nil => intro c x; rfl
    | cons g gs ih =>
      intro c x
      simp only [ClipUp.centers, List.foldl_cons]
      rw [List.getLast?_cons, ih]; rfl
  have hlast2 : ∀ (gs : List (Fin d → ℝ)) (s : ClipUpState d), (clipupCenters s gs).getLast? = some ((funcClipUp d).ask (gs.foldl (funcClipUp d).tell s)) := by
    intro gs
    induction gs with
    | nil => intro s; rfl
    | cons g gs ih =>
      intro s
      simp only [clipupCenters, List.foldl_cons]
      rw [List.getLast?_cons, ih]; rfl
  have hO : ∀ gs : List (Fin d → ℝ), (classClipUp d).ask (gs.foldl (classClipUp d).tell (c, some center)) = (funcClipUp d).ask (gs.foldl (funcClipUp d).tell os) := by
    intro gs
    obtain ⟨os', eo', hcs⟩ := C53_clipup stepsize momentum maxSpeed c hc center gs
    have : os' = os := Except.ok.inj (eo'.symm.trans eo)
    subst this
    have h1 := hlast1 gs c (some center)
    rw [← hcs, hlast2] at h1
    exact (Option.some.inj h1).symm
  obtain ⟨l, h1, h2, h3⟩ := runs_agree n mn mx mc h lr (classClipUp d) (funcClipUp d) grad hg data (c, some center) os hO fs sigma hr
  exact ⟨fs, os, l, e, eo, h1, h2, h3⟩

/-! ### Where they differ -/

/-- **C104 violated.** Without `stdev_min` the class lets the standard deviation become negative, the functional search stops it at 0. -/
theorem C104_violated_without_minimum :
    ∃ fs, funcInit [.fin (1 : ℚ)] none none (some (.scalar (.fin 3))) = .ok fs ∧
      classRun (classPlain 1 ℚ) (fun _ _ (x : ℚ) => (fun _ => 0, [x])) ⟨none, none, some (.scalar (.fin 3))⟩ 1 (fun _ => 0, [.fin 1]) [-3] ≠
      funcRun (funcPlain 1 ℚ) (fun _ _ (x : ℚ) => (fun _ => 0, [x])) 1 (fun _ => 0, fs) [-3] := by
  refine ⟨_, rfl, fun h => ?_⟩
  have h2 := congrArg (fun r => r.toOption.map (fun l => l.map Prod.snd)) h
  revert h2
  decide +kernel

/-- **C104 violated.** If the initial standard deviation is below `stdev_min`, the class stays below it (it respects the maximum change), the functional search jumps to it. -/
theorem C104_violated_outside :
    ∃ fs, funcInit [.fin (1 : ℚ)] (some (.scalar (.fin 2))) none (some (.scalar (.fin (1/5)))) = .ok fs ∧
      classRun (classPlain 1 ℚ) (fun _ _ (x : ℚ) => (fun _ => 0, [x])) ⟨some (.scalar (.fin 2)), none, some (.scalar (.fin (1/5)))⟩ 1 (fun _ => 0, [.fin 1]) [0] ≠
      funcRun (funcPlain 1 ℚ) (fun _ _ (x : ℚ) => (fun _ => 0, [x])) 1 (fun _ => 0, fs) [0] := by
  refine ⟨_, rfl, fun h => ?_⟩
  have h2 := congrArg (fun r => r.toOption.map (fun l => l.map Prod.snd)) h
  revert h2
  decide +kernel

/-! ### Non-vacuity -/

example : Same 2 (some (.scalar (.fin (1/10 : ℚ)))) (some (.tensor [.fin 1, .pinf])) (some (.scalar (.fin (1/5)))) := by
  refine ⟨⟨rfl, ⟨rfl, by decide⟩, rfl, ⟨_, rfl⟩, ?_⟩, by simp, by simp⟩
  intro i _ x hx
  simp only [changeAt, Option.some.injEq, Flt.fin.injEq] at hx
  rw [← hx]; norm_num
/-- The default settings of `PGPE`. -/
example (n : Nat) : Same n none none (some (.scalar (.fin (1/5 : ℚ)))) := by
  refine ⟨⟨trivial, trivial, rfl, ⟨_, rfl⟩, ?_⟩, by simp, fun _ => ⟨by simp, fun i _ => ⟨1/5, rfl, by norm_num⟩⟩⟩
  intro i _ x hx
  simp only [changeAt, Option.some.injEq, Flt.fin.injEq] at hx
  rw [← hx]; norm_num
example : Same 1 (some (.scalar (.fin (1/10 : ℚ)))) none none :=
  ⟨⟨rfl, trivial, trivial, trivial, by simp [changeAt]⟩, fun _ _ i _ => by simp [lowerAt, limitAt, lt], by simp⟩
example : GoodInit 2 (some (.scalar (.fin (1/10 : ℚ)))) (some (.tensor [.fin 1, .pinf])) (some (.scalar (.fin (1/5)))) [1/2, 7] := by
  refine ⟨rfl, ?_, by simp⟩
  intro i x h
  match i with
  | 0 => cases h; constructor <;> decide +kernel
  | 1 => cases h; constructor <;> decide +kernel
  | _ + 2 => simp at h

end EvoTorch.SearchAgree
