import Verif.Spec.Illumination
import Verif.Props.GlobalSearch
import Verif.Props.MapElites
/-!
C170: MAP-Elites with Gaussian mutation fills every cell that can be reached, in the limit, with solutions as good as any.
-/
namespace EvoTorch.Illumination
open EvoTorch
open EvoTorch.GA (Row)
open EvoTorch.BestWorst (Sense ArgSpec Better)
open EvoTorch.MapElites (Ev Cell Cfg State extended Good Deterministic suitable)
open EvoTorch.Selection (NotWorse)
open EvoTorch.GlobalSearch (upper uniforms normals upper_le upper_le_const mask moves mask_measurable moves_measurable mask_chance moves_chance)
open MeasureTheory ProbabilityTheory
open scoped ENNReal
variable {n l : Nat}

/-! ### A general bound -/

section general
variable {S Ω : Type} [MeasurableSpace Ω] (P : Measure Ω) [IsProbabilityMeasure P] (gen : Ω → (Fin n → Fin l → ℝ) → (Fin n → Fin l → ℝ) → S → S)

theorem chance_zero {wanted inv : S → Prop} (hinv : ∀ ω u g st, inv st → inv (gen ω u g st)) (hkeep : ∀ ω u g st, inv st → wanted st → wanted (gen ω u g st)) (k : Nat) :
    ∀ st, inv st → wanted st → chanceNot P gen wanted k st = 0 := by
  induction k with
  | zero => intro st _ hr; simp [chanceNot, hr]
  | succ k ih =>
    intro st hc hr
    rw [← nonpos_iff_eq_zero]
    exact upper_le_const P fun ω => upper_le_const _ fun u => upper_le_const _ fun g => (ih _ (hinv ω u g st hc) (hkeep ω u g st hc hr)).le

theorem chance_le {wanted inv : S → Prop} (hinv : ∀ ω u g st, inv st → inv (gen ω u g st)) (hkeep : ∀ ω u g st, inv st → wanted st → wanted (gen ω u g st))
    {p s : ℝ} {lb ub a b : Fin l → ℝ} (hn : 0 < n) (hs : 0 < s) (hp0 : 0 ≤ p) (hp1 : p ≤ 1) (hab : ∀ j, lb j ≤ a j ∧ a j ≤ b j ∧ b j ≤ ub j)
    (hhit : ∀ ω st, inv st → ∃ x : Fin l → ℝ, (∀ j, lb j ≤ x j ∧ x j ≤ ub j) ∧ ∀ u ∈ mask ⟨0, hn⟩ p, ∀ g ∈ moves ⟨0, hn⟩ s x a b, wanted (gen ω u g st)) (k : Nat) :
    ∀ st, inv st → chanceNot P gen wanted k st ≤ (1 - ENNReal.ofReal (∏ j, p * ((b j - a j) / s * gaussianPDFReal 0 1 ((ub j - lb j) / s)))) ^ k := by
  induction k with
  | zero => intro st _; simp only [chanceNot, pow_zero]; split <;> simp
  | succ k ih =>
    intro st hc
    set D : ℝ≥0∞ := (1 - ENNReal.ofReal (∏ j, p * ((b j - a j) / s * gaussianPDFReal 0 1 ((ub j - lb j) / s)))) ^ k with hD
    refine upper_le_const P fun ω => ?_
    have hrest : ∀ u g, chanceNot P gen wanted k (gen ω u g st) ≤ D := fun u g => ih _ (hinv ω u g st hc)
    obtain ⟨x, hx, hwant⟩ := hhit ω st hc
    have hz : ∀ u ∈ mask ⟨0, hn⟩ p, ∀ g ∈ moves ⟨0, hn⟩ s x a b, chanceNot P gen wanted k (gen ω u g st) ≤ 0 := fun u hu g hg =>
      (chance_zero P gen hinv hkeep k _ (hinv ω u g st hc) (hwant u hu g hg)).le
    have hmoves := moves_chance (n := n) ⟨0, hn⟩ hs hx hab
    have hmask := mask_chance (l := l) (n := n) ⟨0, hn⟩ hp0 hp1
    have hinner : ∀ u ∈ mask ⟨0, hn⟩ p, upper (normals n l) (fun g => chanceNot P gen wanted k (gen ω u g st)) ≤ D * normals n l (moves ⟨0, hn⟩ s x a b)ᶜ := by
      intro u hu
      have := upper_le (normals n l) (moves_measurable ⟨0, hn⟩ s x a b) (hz u hu) (fun g _ => hrest u g)
      simpa using this
    have houter : ∀ u, u ∉ mask ⟨0, hn⟩ p → upper (normals n l) (fun g => chanceNot P gen wanted k (gen ω u g st)) ≤ D := fun u _ => upper_le_const _ (hrest u)
    refine (upper_le (uniforms n l) (mask_measurable ⟨0, hn⟩ p) hinner houter).trans ?_
    rw [prob_compl_eq_one_sub (mask_measurable _ p), prob_compl_eq_one_sub (moves_measurable _ _ _ _ _)]
    set U := uniforms n l (mask ⟨0, hn⟩ p)
    set N := normals n l (moves ⟨0, hn⟩ s x a b)
    have hU : U ≤ 1 := prob_le_one
    have hN : N ≤ 1 := prob_le_one
    have hprod : ENNReal.ofReal (∏ j, p * ((b j - a j) / s * gaussianPDFReal 0 1 ((ub j - lb j) / s))) ≤ U * N := by
      rw [Finset.prod_mul_distrib, ENNReal.ofReal_mul (Finset.prod_nonneg fun _ _ => hp0)]
      exact mul_le_mul' hmask hmoves
    have : D * (1 - N) * U + D * (1 - U) = D * (1 - U * N) := by
      rw [mul_assoc, ← mul_add]
      congr 1
      rw [ENNReal.sub_mul (fun _ _ => (hU.trans_lt ENNReal.one_lt_top).ne), one_mul, mul_comm N U]
      rw [add_comm]
      exact tsub_add_tsub_cancel hU (by calc U * N ≤ U * 1 := by gcongr
                                          _ = U := mul_one U)
    rw [this, pow_succ, ← hD]
    gcongr

omit [IsProbabilityMeasure P] in
theorem upper_mono {α : Type} [MeasurableSpace α] (μ : Measure α) {F G : α → ℝ≥0∞} (h : ∀ x, F x ≤ G x) : upper μ F ≤ upper μ G :=
  le_iInf fun H => iInf_le_of_le ⟨H.1, H.2.1, fun x => (h x).trans (H.2.2 x)⟩ le_rfl

omit [IsProbabilityMeasure P] in
theorem upper_add {α : Type} [MeasurableSpace α] (μ : Measure α) (F G : α → ℝ≥0∞) : upper μ (fun x => F x + G x) ≤ upper μ F + upper μ G := by
  unfold upper
  rw [ENNReal.iInf_add]
  refine le_iInf fun A => ?_
  rw [ENNReal.add_iInf]
  refine le_iInf fun B => ?_
  refine iInf_le_of_le ⟨fun x => A.1 x + B.1 x, A.2.1.add B.2.1, fun x => add_le_add (A.2.2 x) (B.2.2 x)⟩ ?_
  rw [lintegral_add_left A.2.1]

omit [IsProbabilityMeasure P] in
theorem chance_and (w1 w2 : S → Prop) (k : Nat) : ∀ st, chanceNot P gen (fun st => w1 st ∧ w2 st) k st ≤ chanceNot P gen w1 k st + chanceNot P gen w2 k st := by
  induction k with
  | zero =>
    intro st
    simp only [chanceNot]
    by_cases h1 : w1 st <;> by_cases h2 : w2 st <;> simp [h1, h2]
  | succ k ih =>
    intro st
    refine le_trans (upper_mono P fun ω => le_trans (upper_mono _ fun u => le_trans (upper_mono _ fun g => ih _) (upper_add _ _ _)) (upper_add _ _ _)) (upper_add _ _ _)

theorem chance_forall (I : Finset Nat) (w : Nat → S → Prop) (k : Nat) (st : S) : chanceNot P gen (fun st => ∀ i ∈ I, w i st) k st ≤ ∑ i ∈ I, chanceNot P gen (w i) k st := by
  classical
  induction I using Finset.induction_on with
  | empty =>
    have : chanceNot P gen (fun st => ∀ i ∈ (∅ : Finset Nat), w i st) k st = 0 :=
      chance_zero P gen (inv := fun _ => True) (fun _ _ _ _ _ => trivial) (fun _ _ _ _ _ _ => by simp) k st trivial (by simp)
    rw [this]; exact bot_le
  | insert j I hj ih =>
    rw [Finset.sum_insert hj]
    have : (fun st => ∀ i ∈ insert j I, w i st) = fun st => w j st ∧ ∀ i ∈ I, w i st := by
      funext st; simp
    rw [this]
    exact (chance_and P gen _ _ k st).trans (add_le_add le_rfl ih)

end general

/-! ### One generation -/

/-- Every solution is inside the bounds. -/
def Inside (lb ub : Fin l → ℝ) (rows : List (Row (Fin l → ℝ) (Ev ℝ))) : Prop := ∀ r ∈ rows, ∀ j, lb j ≤ r.val j ∧ r.val j ≤ ub j

section one
variable {Ω : Type} {cfg : Cfg ℝ} (o : Ops Ω n l) (fit : (Fin l → ℝ) → ℝ) (feats : List ((Fin l → ℝ) → ℝ))

/-- What the operators are given does not depend on their draws. -/
theorem extended_children (st : State (Fin l → ℝ) ℝ) (hg : Good (evalRow fit feats) st) :
    ∃ ev : List (Row (Fin l → ℝ) (Ev ℝ)), ev.map (·.val) = st.population.map (·.val) ∧
      ∀ ops, extended cfg ⟨evalRow fit feats, evalRow fit feats, ops⟩ st = GA.evaluate (evalRow fit feats) st.population ++ GA.evaluate (evalRow fit feats) (ops ev) := by
  have hv : ∀ rows : List (Row (Fin l → ℝ) (Ev ℝ)), (GA.evaluate (evalRow fit feats) rows).map (·.val) = rows.map (·.val) := fun rows => by simp [GA.evaluate]
  by_cases hre : cfg.reEvaluate = true
  · by_cases hpf : cfg.parentsFirst = true
    · refine ⟨GA.evaluate (evalRow fit feats) st.population, hv _, fun ops => ?_⟩
      simp [extended, GA.makeExtended, MapElites.Cfg.ga, hre, hpf]
    · refine ⟨st.population, rfl, fun ops => ?_⟩
      simp only [extended, GA.makeExtended, MapElites.Cfg.ga, hre, hpf, if_true, Bool.false_eq_true, if_false, List.take_append_drop]
      simp [GA.evaluate]
  · by_cases hfi : st.firstIter = true
    · refine ⟨GA.evaluate (evalRow fit feats) st.population, hv _, fun ops => ?_⟩
      simp [extended, GA.makeExtended, MapElites.Cfg.ga, hre, hfi]
    · refine ⟨st.population, rfl, fun ops => ?_⟩
      simp [extended, GA.makeExtended, MapElites.Cfg.ga, hre, hfi, MapElites.evaluate_id _ _ (hg.resolve_left hfi)]

theorem lands (hs : 0 < o.stdev) (ω : Ω) (rows : List (Row (Fin l → ℝ) (Ev ℝ))) {a b : Fin l → ℝ} (hab : ∀ j, o.lb j ≤ a j ∧ a j ≤ b j ∧ b j ≤ o.ub j) (i : Fin n)
    {u g : Fin n → Fin l → ℝ} (hu : u ∈ mask i o.prob) (hg : g ∈ moves i o.stdev (o.before ω rows i) a b) : ∃ r ∈ children o ω u g rows, ∀ j, a j ≤ r.val j ∧ r.val j ≤ b j := by
  refine ⟨_, List.mem_ofFn.mpr ⟨i, rfl⟩, fun j => ?_⟩
  have h1 : u i j ≤ o.prob := hu i (by simp) j trivial
  obtain ⟨h3, h4⟩ := hg i (by simp) j trivial
  rw [div_le_iff₀ hs] at h3
  rw [le_div_iff₀ hs] at h4
  have := hab j
  have hv : Operators.gaussianMutation (fun j => some (o.lb j)) (fun j => some (o.ub j)) o.prob o.stdev u g (o.before ω rows) i j = o.before ω rows i j + o.stdev * g i j := by
    unfold Operators.gaussianMutation
    rw [if_pos h1, GlobalSearch.clamp_id (by linarith) (by linarith)]
  dsimp only
  rw [hv]
  exact ⟨by linarith, by linarith⟩

theorem children_inside (hb : ∀ j, o.lb j < o.ub j) (ω : Ω) (u g : Fin n → Fin l → ℝ) (rows : List (Row (Fin l → ℝ) (Ev ℝ))) : Inside o.lb o.ub (children o ω u g rows) := by
  intro r hr j
  obtain ⟨i, rfl⟩ := List.mem_ofFn.mp hr
  dsimp only
  unfold Operators.gaussianMutation Operators.respectBounds
  exact ⟨le_min (hb j).le (le_max_left _ _), min_le_left _ _⟩

theorem inCell_iff {cell : Cell ℝ} (v : Fin l → ℝ) : InCell cell feats v ↔ MapElites.InCell cell (evalRow fit feats v).feats := by
  unfold InCell MapElites.InCell evalRow
  rw [List.forall₂_map_right_iff]

theorem suitable_of {cell : Cell ℝ} (hl : cell.length = feats.length) (v : Fin l → ℝ) : suitable cell (some (evalRow fit feats v)) = true ↔ InCell cell feats v := by
  rw [MapElites.suitable_iff cell _ (by simp [evalRow, hl]), inCell_iff fit]

theorem not_better {s : Sense} {x y : Fin l → ℝ} : ¬ Better s (evalRow fit feats x).fit (evalRow fit feats y).fit ↔ NotWorse s (fit y) (fit x) := by
  cases s <;> simp [Better, evalRow, Flt.lt, NotWorse]

/-- The invariant of a run. -/
def Inv (st : State (Fin l → ℝ) ℝ) : Prop := Good (evalRow fit feats) st ∧ st.population ≠ [] ∧ Inside o.lb o.ub st.population

omit o in
/-- One step, whatever the operators are, as long as they keep inside the bounds. -/
theorem step_facts {lb ub : Fin l → ℝ} (hargs : ArgSpec cfg.A) (hcells : ∀ cell ∈ cfg.grid, cell.length = feats.length) (hgrid : cfg.grid ≠ []) (st : State (Fin l → ℝ) ℝ)
    (hi : Good (evalRow fit feats) st ∧ st.population ≠ [] ∧ Inside lb ub st.population) :
    ∃ ev, Inside lb ub ev ∧ ∀ kids : List (Row (Fin l → ℝ) (Ev ℝ)) → List (Row (Fin l → ℝ) (Ev ℝ)), Inside lb ub (kids ev) →
      (Good (evalRow fit feats) (MapElites.step cfg st ⟨evalRow fit feats, evalRow fit feats, kids⟩) ∧ (MapElites.step cfg st ⟨evalRow fit feats, evalRow fit feats, kids⟩).population ≠ [] ∧
        Inside lb ub (MapElites.step cfg st ⟨evalRow fit feats, evalRow fit feats, kids⟩).population) ∧
      ∀ i cell, cfg.grid[i]? = some cell → ∀ q, q ∈ st.population ∨ q ∈ kids ev → InCell cell feats q.val → ∀ c, NotWorse cfg.sense (fit q.val) c →
        Holds cfg fit feats i c (MapElites.step cfg st ⟨evalRow fit feats, evalRow fit feats, kids⟩) := by
  obtain ⟨hgood, hne, hin⟩ := hi
  obtain ⟨ev, hev, hext⟩ := extended_children (cfg := cfg) fit feats st hgood
  have hevi : Inside lb ub ev := by
    intro r hr
    have : r.val ∈ st.population.map (·.val) := by rw [← hev]; exact List.mem_map_of_mem hr
    obtain ⟨q, hq, hv⟩ := List.mem_map.1 this
    rw [← hv]; exact hin q hq
  refine ⟨ev, hevi, fun kids hkids => ?_⟩
  have hd : Deterministic (evalRow fit feats) ⟨evalRow fit feats, evalRow fit feats, kids⟩ := ⟨rfl, rfl⟩
  have hfin : ∀ v, ∃ x, (evalRow fit feats v).fit = .fin x := fun v => ⟨fit v, rfl⟩
  obtain ⟨hg', hstep⟩ := MapElites.step_spec cfg hargs (evalRow fit feats) hfin _ hd st hgood hne
  refine ⟨⟨hg', MapElites.step_length cfg hargs (evalRow fit feats) hfin _ hd st hgood hne hgrid, ?_⟩, ?_⟩
  · intro r hr j
    simp only [MapElites.step, List.mem_filterMap] at hr
    obtain ⟨cell, _, hr⟩ := hr
    have hm := List.mem_of_getElem? hr
    rw [hext] at hm
    rcases List.mem_append.1 hm with hm | hm
    · obtain ⟨q, hq, rfl⟩ := List.mem_map.1 hm; exact hin q hq j
    · obtain ⟨q, hq, rfl⟩ := List.mem_map.1 hm; exact hkids q hq j
  · intro i cell hcell q hq hqc c hqf
    obtain ⟨r, hr, hrm, hre, hfill, hbest⟩ := hstep i cell hcell
    have hlen := hcells cell (List.mem_of_getElem? hcell)
    have hmem : (⟨q.val, some (evalRow fit feats q.val)⟩ : Row (Fin l → ℝ) (Ev ℝ)) ∈ extended cfg ⟨evalRow fit feats, evalRow fit feats, kids⟩ st := by
      rw [hext]
      rcases hq with hq | hq
      · exact List.mem_append_left _ (List.mem_map.2 ⟨q, hq, rfl⟩)
      · exact List.mem_append_right _ (List.mem_map.2 ⟨q, hq, rfl⟩)
    obtain ⟨h1, h2⟩ := hbest _ hmem ((suitable_of fit feats hlen q.val).2 hqc)
    refine ⟨by show (MapElites.step cfg st _).filled[i]? = _; rw [hfill, h1], cell, r, hcell, hr, ?_, ?_⟩
    · rw [hre] at h1; exact (suitable_of fit feats hlen r.val).1 h1
    · exact GA.notWorse_trans ((not_better fit feats).1 h2) hqf

theorem generation_facts (hP : Proper cfg o feats) (hgrid : cfg.grid ≠ []) (ω : Ω) (st : State (Fin l → ℝ) ℝ) (hi : Inv o fit feats st) :
    ∃ ev, Inside o.lb o.ub ev ∧ ∀ u g, Inv o fit feats (generation cfg o fit feats ω u g st) ∧
      ∀ i cell, cfg.grid[i]? = some cell → ∀ q, q ∈ st.population ∨ q ∈ children o ω u g ev → InCell cell feats q.val → ∀ c, NotWorse cfg.sense (fit q.val) c →
        Holds cfg fit feats i c (generation cfg o fit feats ω u g st) := by
  obtain ⟨ev, hev, h⟩ := step_facts fit feats hP.args hP.cells hgrid st hi
  exact ⟨ev, hev, fun u g => h (children o ω u g) (children_inside o hP.bounds ω u g ev)⟩

end one

/-! ### Theorems -/

section claims
variable {Ω : Type} [MeasurableSpace Ω] (P : Measure Ω) [IsProbabilityMeasure P] {cfg : Cfg ℝ} {o : Ops Ω n l} (fit : (Fin l → ℝ) → ℝ) {feats : List ((Fin l → ℝ) → ℝ)}

/-- **C170 (rate).** If every point of a box inside the bounds has its features in cell number `i` and a fitness not worse than `c`, then after `k` generations, from any initial solutions inside the
bounds, the chance that the cell is not filled with a solution at least as good as `c` is at most `(1 - δ) ^ k`, where `δ`, given by the mutation's settings, the box and the bounds alone, is positive. -/
theorem C170_rate (hP : Proper cfg o feats) {a b : Fin l → ℝ} (hab : ∀ j, o.lb j ≤ a j ∧ a j < b j ∧ b j ≤ o.ub j) {i : Nat} {cell : Cell ℝ} (hi : cfg.grid[i]? = some cell) {c : ℝ}
    (hgood : ∀ v, (∀ j, a j ≤ v j ∧ v j ≤ b j) → InCell cell feats v ∧ NotWorse cfg.sense (fit v) c) (vals : List (Fin l → ℝ)) (hl : vals.length = cfg.grid.length)
    (hv : ∀ v ∈ vals, ∀ j, o.lb j ≤ v j ∧ v j ≤ o.ub j) (k : Nat) :
    0 < hitChance o a b ∧ chanceNot P (generation cfg o fit feats) (Holds cfg fit feats i c) k (MapElites.init vals) ≤ (1 - ENNReal.ofReal (hitChance o a b)) ^ k := by
  have hgrid : cfg.grid ≠ [] := by intro h; rw [h] at hi; simp at hi
  refine ⟨Finset.prod_pos fun j _ => ?_, ?_⟩
  · have := hab j
    exact mul_pos hP.prob.1 (mul_pos (div_pos (by linarith) hP.stdev) (gaussianPDFReal_pos _ _ _ one_ne_zero))
  · refine chance_le P (generation cfg o fit feats) (inv := Inv o fit feats) ?_ ?_ hP.children hP.stdev hP.prob.1.le hP.prob.2 (fun j => ⟨(hab j).1, (hab j).2.1.le, (hab j).2.2⟩) ?_ k _ ?_
    · intro ω u g st hst
      obtain ⟨ev, _, h⟩ := generation_facts o fit feats hP hgrid ω st hst
      exact (h u g).1
    · rintro ω u g st hst ⟨-, cell', r, hc', hr, hin, hnw⟩
      obtain ⟨ev, _, h⟩ := generation_facts o fit feats hP hgrid ω st hst
      exact (h u g).2 i cell' hc' r (.inl (List.mem_of_getElem? hr)) hin c hnw
    · intro ω st hst
      obtain ⟨ev, hevi, h⟩ := generation_facts o fit feats hP hgrid ω st hst
      refine ⟨o.before ω ev ⟨0, hP.children⟩, fun j => hP.before ω ev hevi _ j, fun u hu g hg => ?_⟩
      obtain ⟨r, hr, hbox⟩ := lands o hP.stdev ω ev (fun j => ⟨(hab j).1, (hab j).2.1.le, (hab j).2.2⟩) _ hu hg
      exact (h u g).2 i cell hi r (.inr hr) (hgood _ hbox).1 c (hgood _ hbox).2
    · refine ⟨.inl rfl, ?_, ?_⟩
      · intro h
        have hl0 : (MapElites.init vals : State (Fin l → ℝ) ℝ).population.length = 0 := by rw [h]; rfl
        simp only [MapElites.init, List.length_map] at hl0
        exact hgrid (List.length_eq_zero_iff.mp (by omega))
      · intro r hr
        obtain ⟨v, hvm, rfl⟩ := List.mem_map.mp hr
        exact hv v hvm

theorem open_interval (b : Flt ℝ × Flt ℝ) : IsOpen {y : ℝ | Flt.lt b.1 (.fin y) = true ∧ Flt.lt (.fin y) b.2 = true} := by
  obtain ⟨lo, hi⟩ := b
  have h1 : IsOpen {y : ℝ | Flt.lt lo (.fin y) = true} := by
    cases lo with
    | nan => simp [Flt.lt]
    | ninf => simp [Flt.lt]
    | fin a => simp only [Flt.lt, decide_eq_true_eq]; exact isOpen_Ioi
    | pinf => simp [Flt.lt]
  have h2 : IsOpen {y : ℝ | Flt.lt (.fin y) hi = true} := by
    cases hi with
    | nan => simp [Flt.lt]
    | ninf => simp [Flt.lt]
    | fin a => simp only [Flt.lt, decide_eq_true_eq]; exact isOpen_Iio
    | pinf => simp [Flt.lt]
  exact h1.inter h2

theorem inCell_of_interior {cell : Cell ℝ} {v : Fin l → ℝ} (h : InInterior cell feats v) : InCell cell feats v :=
  List.Forall₂.imp (fun _ _ hb => ⟨MapElites.le_of_lt' hb.1, MapElites.le_of_lt' hb.2⟩) h

theorem eventually_interior {D : Set (Fin l → ℝ)} {x : Fin l → ℝ} (hx : x ∈ D) : ∀ (cell : Cell ℝ) (feats : List ((Fin l → ℝ) → ℝ)), (∀ p ∈ feats, ContinuousOn p D) → InInterior cell feats x →
    ∀ᶠ v in nhdsWithin x D, InInterior cell feats v := by
  intro cell
  induction cell with
  | nil => intro feats _ h; cases h; exact Filter.Eventually.of_forall fun _ => List.Forall₂.nil
  | cons b cell ih =>
    intro feats hc h
    cases h with
    | cons h1 h2 =>
      rename_i p ps
      have e1 := (hc p (List.mem_cons_self ..) x hx).eventually_mem ((open_interval b).mem_nhds h1)
      have e2 := ih ps (fun q hq => hc q (List.mem_cons_of_mem _ hq)) h2
      exact (e1.and e2).mono fun v hv => List.Forall₂.cons hv.1 hv.2

/-- Around every point within the bounds whose features lie in the interior of a cell there is a box of points whose features lie in the cell and whose fitness is almost as good. -/
theorem cell_box {lb ub : Fin l → ℝ} (hb : ∀ j, lb j < ub j) (s : Sense) (hf : ContinuousOn fit (Set.Icc lb ub)) (hp : ∀ p ∈ feats, ContinuousOn p (Set.Icc lb ub)) {cell : Cell ℝ} {x : Fin l → ℝ}
    (hx : x ∈ Set.Icc lb ub) (hxc : InInterior cell feats x) {ε : ℝ} (hε : 0 < ε) :
    ∃ a b : Fin l → ℝ, (∀ j, lb j ≤ a j ∧ a j < b j ∧ b j ≤ ub j) ∧ ∀ v, (∀ j, a j ≤ v j ∧ v j ≤ b j) → InCell cell feats v ∧ NotWorse s (fit v) (GlobalSearch.slack s (fit x) ε) := by
  have hev := (eventually_interior hx cell feats hp hxc).and ((hf x hx).eventually_mem (Metric.ball_mem_nhds (fit x) hε))
  obtain ⟨r, hr, hball⟩ := Metric.mem_nhdsWithin_iff.1 hev
  let a : Fin l → ℝ := fun j => max (lb j) (x j - r / 2)
  let b : Fin l → ℝ := fun j => min (ub j) (x j + r / 2)
  have hab : ∀ j, lb j ≤ a j ∧ a j < b j ∧ b j ≤ ub j := by
    intro j
    have h1 := hx.1 j
    have h1' := hx.2 j
    have h2 := hb j
    refine ⟨le_max_left _ _, max_lt (lt_min h2 (by linarith)) (lt_min (by linarith) (by linarith)), min_le_left _ _⟩
  have hgood : ∀ v, (∀ j, a j ≤ v j ∧ v j ≤ b j) → InCell cell feats v ∧ NotWorse s (fit v) (GlobalSearch.slack s (fit x) ε) := by
    intro v hvb
    have hin : v ∈ Set.Icc lb ub := ⟨fun j => (hab j).1.trans (hvb j).1, fun j => (hvb j).2.trans (hab j).2.2⟩
    have hd : dist v x < r := by
      refine lt_of_le_of_lt ((dist_pi_le_iff (r := r / 2) (by linarith)).2 fun j => ?_) (by linarith)
      have h1 := (le_max_right _ _).trans (hvb j).1
      have h2 := (hvb j).2.trans (min_le_right _ _)
      rw [Real.dist_eq, abs_le]
      exact ⟨by linarith, by linarith⟩
    obtain ⟨h1, h2⟩ := hball ⟨hd, hin⟩
    refine ⟨inCell_of_interior h1, ?_⟩
    have h3 : |fit v - fit x| < ε := h2
    rw [abs_lt] at h3
    cases s
    · show fit v ≤ fit x + ε; linarith
    · show fit x - ε ≤ fit v; linarith
  exact ⟨a, b, hab, hgood⟩

/-- **C170 (convergence).** With a fitness and features that are continuous within the bounds, for every point `x` within the bounds whose features lie in the interior of cell number `i`, and every
`ε > 0`, the chance that after `k` generations the cell is not filled with a solution within `ε` of the fitness of `x`, or better, tends to 0. -/
theorem C170_converges (hP : Proper cfg o feats) (hf : ContinuousOn fit (Set.Icc o.lb o.ub)) (hp : ∀ p ∈ feats, ContinuousOn p (Set.Icc o.lb o.ub)) {i : Nat} {cell : Cell ℝ}
    (hi : cfg.grid[i]? = some cell) {x : Fin l → ℝ} (hx : x ∈ Set.Icc o.lb o.ub) (hxc : InInterior cell feats x) {ε : ℝ} (hε : 0 < ε) (vals : List (Fin l → ℝ))
    (hl : vals.length = cfg.grid.length) (hv : ∀ v ∈ vals, ∀ j, o.lb j ≤ v j ∧ v j ≤ o.ub j) :
    Filter.Tendsto (fun k => chanceNot P (generation cfg o fit feats) (Holds cfg fit feats i (GlobalSearch.slack cfg.sense (fit x) ε)) k (MapElites.init vals)) Filter.atTop (nhds 0) := by
  obtain ⟨a, b, hab, hgood⟩ := cell_box fit hP.bounds cfg.sense hf hp hx hxc hε
  have hδ := (C170_rate P fit hP hab hi hgood vals hl hv 0).1
  have hlt : 1 - ENNReal.ofReal (hitChance o a b) < 1 := ENNReal.sub_lt_self ENNReal.one_ne_top one_ne_zero (by simpa using hδ)
  exact tendsto_of_tendsto_of_tendsto_of_le_of_le tendsto_const_nhds (ENNReal.tendsto_pow_atTop_nhds_zero_of_lt_one hlt) (fun k => bot_le) (fun k => (C170_rate P fit hP hab hi hgood vals hl hv k).2)

/-- **C170 (all cells).** The chance that after `k` generations not all cells of a set are filled with solutions almost as good as given points in their interiors, or better, tends to 0: the whole
archive is illuminated. -/
theorem C170_all_cells (hP : Proper cfg o feats) (hf : ContinuousOn fit (Set.Icc o.lb o.ub)) (hp : ∀ p ∈ feats, ContinuousOn p (Set.Icc o.lb o.ub)) (I : Finset Nat) (x : Nat → Fin l → ℝ)
    (hx : ∀ i ∈ I, x i ∈ Set.Icc o.lb o.ub ∧ ∃ cell, cfg.grid[i]? = some cell ∧ InInterior cell feats (x i)) {ε : ℝ} (hε : 0 < ε) (vals : List (Fin l → ℝ)) (hl : vals.length = cfg.grid.length)
    (hv : ∀ v ∈ vals, ∀ j, o.lb j ≤ v j ∧ v j ≤ o.ub j) :
    Filter.Tendsto (fun k => chanceNot P (generation cfg o fit feats) (fun st => ∀ i ∈ I, Holds cfg fit feats i (GlobalSearch.slack cfg.sense (fit (x i)) ε) st) k (MapElites.init vals))
      Filter.atTop (nhds 0) := by
  have hsum : Filter.Tendsto (fun k => ∑ i ∈ I, chanceNot P (generation cfg o fit feats) (Holds cfg fit feats i (GlobalSearch.slack cfg.sense (fit (x i)) ε)) k (MapElites.init vals))
      Filter.atTop (nhds (∑ i ∈ I, 0)) := tendsto_finsetSum I fun i hiI => by
    obtain ⟨h1, cell, h2, h3⟩ := hx i hiI
    exact C170_converges P fit hP hf hp h2 h1 h3 hε vals hl hv
  rw [Finset.sum_const_zero] at hsum
  exact tendsto_of_tendsto_of_tendsto_of_le_of_le tendsto_const_nhds hsum (fun k => bot_le) (fun k => chance_forall P _ I _ k _)

end claims

/-! ### A concrete case -/

/-- Two cells, below and above 1/2, for the one gene in `[0, 1]` which is its own feature; the fitness is to be maximised. -/
noncomputable def exCfg : Cfg ℝ := ⟨BestWorst.refArgs, .max, [[(.ninf, .fin (1 / 2))], [(.fin (1 / 2), .pinf)]], true, false⟩
noncomputable def exOps : Ops Unit 1 1 := ⟨fun _ rows _ => (rows.head?.map (·.val)).getD fun _ => 0, fun _ => 0, fun _ => 1, 1, 1⟩

theorem exProper : Proper exCfg exOps [fun v => v 0] where
  args := BestWorst.refArgs_spec
  cells := by simp [exCfg]
  children := Nat.one_pos
  stdev := one_pos
  prob := ⟨one_pos, le_rfl⟩
  bounds := fun _ => zero_lt_one
  before := by
    intro _ rows h i j
    cases rows with
    | nil => exact ⟨le_rfl, zero_le_one⟩
    | cons r rows => exact h r (by simp) j

/-- Both cells become filled, the first with a fitness of nearly 1/4, the second with one of nearly 3/4. -/
example : Filter.Tendsto (fun k => chanceNot (Measure.dirac ()) (generation exCfg exOps (fun v => v 0) [fun v => v 0])
    (fun st => ∀ i ∈ ({0, 1} : Finset Nat), Holds exCfg (fun v => v 0) [fun v => v 0] i (GlobalSearch.slack .max (if i = 0 then 1 / 4 else 3 / 4) (1 / 100)) st) k
    (MapElites.init [fun _ => 0, fun _ => 0])) Filter.atTop (nhds 0) := by
  have := C170_all_cells (Measure.dirac ()) (fun v : Fin 1 → ℝ => v 0) exProper (Continuous.continuousOn (by fun_prop)) (by intro p hp; simp at hp; rw [hp]; exact Continuous.continuousOn (by fun_prop))
    {0, 1} (fun i _ => if i = 0 then 1 / 4 else 3 / 4) (by
      intro i hi
      simp only [Finset.mem_insert, Finset.mem_singleton] at hi
      rcases hi with rfl | rfl
      · refine ⟨⟨fun j => ?_, fun j => ?_⟩, _, rfl, List.Forall₂.cons ⟨?_, ?_⟩ List.Forall₂.nil⟩ <;> simp [exOps, Flt.lt] <;> norm_num
      · refine ⟨⟨fun j => ?_, fun j => ?_⟩, _, rfl, List.Forall₂.cons ⟨?_, ?_⟩ List.Forall₂.nil⟩ <;> simp [exOps, Flt.lt] <;> norm_num)
    (ε := 1 / 100) (by norm_num) [fun _ => 0, fun _ => 0] rfl (by simp [exOps])
  exact this

end EvoTorch.Illumination
