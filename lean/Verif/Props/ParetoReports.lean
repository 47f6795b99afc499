import Verif.Model.ParetoReports
import Verif.Props.IlluminationPolynomial
import Verif.Props.ParetoRuns
/-!
C186: on a problem with several objectives, the reported best of every objective comes as close to the optimum of that objective as wanted.
-/
namespace EvoTorch.ParetoReports
open EvoTorch
open EvoTorch.BestWorst (Sense Args ArgSpec Better TrackInv initTrack)
open EvoTorch.Selection (NotWorse)
open EvoTorch.GlobalSearch (uniforms normals slack mask moves)
open EvoTorch.GlobalPolynomial (chanceNot)
open MeasureTheory ProbabilityTheory
open scoped ENNReal
variable {n l m : Nat}

/-! ### Specification -/

/-- The law of the draws of a mutation: independent uniform numbers for the mask, then independent normal numbers for the Gaussian mutation, uniform ones for the polynomial mutation. -/
noncomputable def law (n l : Nat) : Mutation → Measure (Draws n l)
  | .gaussian _ _ => (uniforms n l).prod (normals n l)
  | .polynomial _ _ => (uniforms n l).prod (uniforms n l)

/-- The best solution reported for objective `o` has its own fitnesses as evaluations, and is not worse than `c` in this objective. -/
def Reports (senses : Fin m → Sense) (f : (Fin l → ℝ) → Fin m → ℝ) (o : Fin m) (c : ℝ) (st : St l m) : Prop :=
  ∃ t b, st.stats = some t ∧ (t o).best = some b ∧ (∀ j, b.evals j = .fin (f b.values j)) ∧ NotWorse (senses o) (f b.values o) c

/-- A real mutation. -/
def Mutation.Real : Mutation → Prop
  | .gaussian prob stdev => 0 < stdev ∧ 0 < prob ∧ prob ≤ 1
  | .polynomial prob eta => 0 < eta + 1 ∧ ∀ p, prob = some p → 0 < p

/-- All solutions lie within the bounds. -/
def Inside (lb ub : Fin l → ℝ) (vals : List (Fin l → ℝ)) : Prop := ∀ v ∈ vals, ∀ j, lb j ≤ v j ∧ v j ≤ ub j

/-- A real mutation on a problem with finite bounds makes at least one child; the operators before it keep inside the bounds; `take_best` only takes what there is. -/
structure Proper {Ω : Type} (A : Args ℝ) (cfg : Cfg l m) (o : Ops Ω n l) : Prop where
  args : ArgSpec A
  children : 0 < n
  mutation : o.mutation.Real
  bounds : ∀ j, o.lb j < o.ub j
  before : ∀ ω pop, Inside o.lb o.ub (values pop) → ∀ i j, o.lb j ≤ o.before ω pop i j ∧ o.before ω pop i j ≤ o.ub j
  keep : ∀ k pop, ∀ v ∈ cfg.keep k pop, v ∈ pop

instance (mu : Mutation) : IsProbabilityMeasure (law n l mu) := by
  cases mu <;> unfold law <;> infer_instance

/-! ### Statistics -/

/-- Evaluated batches. -/
def evaluated (f : (Fin l → ℝ) → Fin m → ℝ) (bs : List (List (Fin l → ℝ))) : List (List (BestWorst.Row (Fin l → ℝ) ℝ m)) := bs.map fun b => b.map fun v => ⟨v, fun o => .fin (f v o)⟩

theorem evaluated_honest (f : (Fin l → ℝ) → Fin m → ℝ) (bs : List (List (Fin l → ℝ))) : ∀ b ∈ evaluated f bs, ∀ r ∈ b, ∀ o, r.evals o = .fin (f r.values o) := by
  intro b hb r hr o
  obtain ⟨c, _, rfl⟩ := List.mem_map.1 hb
  obtain ⟨v, _, rfl⟩ := List.mem_map.1 hr
  rfl

/-- The statistics are those of some history of evaluations with `f`. -/
def Honest (senses : Fin m → Sense) (f : (Fin l → ℝ) → Fin m → ℝ) (t : BestWorst.State (Fin l → ℝ) ℝ m) : Prop :=
  ∃ hist : List (List (BestWorst.Row (Fin l → ℝ) ℝ m)), (∀ b ∈ hist, ∀ r ∈ b, ∀ o, r.evals o = .fin (f r.values o)) ∧ ∀ o, TrackInv (senses o) o hist ((t.getD fun o => initTrack (senses o)) o)

theorem track_honest {A : Args ℝ} (hA : ArgSpec A) (senses : Fin m → Sense) (f : (Fin l → ℝ) → Fin m → ℝ) (bs : List (List (Fin l → ℝ))) (t : BestWorst.State (Fin l → ℝ) ℝ m) (h : Honest senses f t) :
    Honest senses f (track A senses f bs t) := by
  obtain ⟨hist, h1, h2⟩ := h
  refine ⟨hist ++ evaluated f bs, ?_, fun o => (BestWorst.run_inv hA senses hist (evaluated f bs) t h2 o).1⟩
  intro b hb
  rcases List.mem_append.1 hb with hb | hb
  · exact h1 b hb
  · exact evaluated_honest f bs b hb

theorem track_isSome {A : Args ℝ} (senses : Fin m → Sense) (f : (Fin l → ℝ) → Fin m → ℝ) (bs : List (List (Fin l → ℝ))) (t : BestWorst.State (Fin l → ℝ) ℝ m) (h : t.isSome ∨ bs ≠ []) :
    (track A senses f bs t).isSome := by
  unfold track
  replace h : t.isSome ∨ evaluated f bs ≠ [] := h.imp_right fun hb => by simpa [evaluated] using hb
  change (List.foldl _ t (evaluated f bs)).isSome = true
  generalize evaluated f bs = bs at h ⊢
  induction bs generalizing t with
  | nil => rcases h with h | h; exact h; exact absurd rfl h
  | cons b bs ih =>
    rw [List.foldl_cons]
    refine ih _ (.inl ?_)
    unfold BestWorst.getBestAndWorst
    dsimp only
    split <;> rfl

/-- Whatever is evaluated, the report for an objective is at least as good as every solution evaluated and as every former report. -/
theorem track_reports {A : Args ℝ} (hA : ArgSpec A) (senses : Fin m → Sense) (f : (Fin l → ℝ) → Fin m → ℝ) (o : Fin m) (c : ℝ) (bs : List (List (Fin l → ℝ))) (st st' : St l m) (h : Honest senses f st.stats)
    (hst : st'.stats = track A senses f bs st.stats) (hc : Reports senses f o c st ∨ ∃ b ∈ bs, ∃ v ∈ b, NotWorse (senses o) (f v o) c) : Reports senses f o c st' := by
  obtain ⟨hist, h1, h2⟩ := h
  have hrun := BestWorst.run_inv hA senses hist (evaluated f bs) st.stats h2 o
  have hall : ∀ b ∈ hist ++ evaluated f bs, ∀ r ∈ b, ∀ o, r.evals o = .fin (f r.values o) := by
    intro b hb
    rcases List.mem_append.1 hb with hb | hb
    · exact h1 b hb
    · exact evaluated_honest f bs b hb
  have hsome : (track A senses f bs st.stats).isSome := by
    refine track_isSome senses f bs _ ?_
    rcases hc with ⟨t, b, ht, _⟩ | ⟨b, hb, _⟩
    · left; rw [ht]; rfl
    · right; rintro rfl; simp at hb
  obtain ⟨t', ht'⟩ := Option.isSome_iff_exists.1 hsome
  have ht'' : List.foldl (fun t b => (BestWorst.getBestAndWorst A senses t b).state) st.stats (evaluated f bs) = some t' := ht'
  have hinv : TrackInv (senses o) o (hist ++ evaluated f bs) (t' o) := by
    have := hrun.1
    rw [ht''] at this
    exact this
  have key : ∀ y : ℝ, NotWorse (senses o) y c → ¬ Better (senses o) (.fin y) (t' o).bestEval → Reports senses f o c st' := by
    intro y hy hb
    have hval := hinv.1.val
    dsimp only at hval
    cases hbest : (t' o).best with
    | none =>
      rw [hbest] at hval
      dsimp only at hval
      rw [hval] at hb
      exfalso
      revert hb
      cases senses o <;> simp [Better, Sense.bad, Flt.lt]
    | some b =>
      rw [hbest] at hval
      dsimp only at hval
      obtain ⟨bt, hbt, hbm⟩ := List.mem_flatten.1 (hinv.1.mem b hbest)
      have hev := hall bt hbt b hbm
      refine ⟨t', b, by rw [hst, ht'], hbest, hev, ?_⟩
      rw [hval, hev] at hb
      revert hb hy
      cases senses o
      · simp only [Better, Flt.lt, decide_eq_true_eq, not_lt]
        exact fun hy hb => le_trans hb hy
      · simp only [Better, Flt.lt, decide_eq_true_eq, not_lt]
        exact fun hy hb => le_trans hy hb
  rcases hc with ⟨t, b, ht, hb, hbe, hbc⟩ | ⟨b, hb, v, hv, hvc⟩
  · refine key _ hbc ?_
    have hval : (t o).bestEval = b.evals o := by
      have := (h2 o).1.val
      rw [ht] at this
      dsimp only [Option.getD_some] at this
      rw [hb] at this
      exact this
    have h3 := hrun.2.1
    rw [ht''] at h3
    rw [ht] at h3
    dsimp only [Option.getD_some] at h3
    rw [hval, hbe] at h3
    exact h3
  · refine key _ hvc ?_
    have hmem : (b.map fun v => (⟨v, fun o => .fin (f v o)⟩ : BestWorst.Row (Fin l → ℝ) ℝ m)) ∈ evaluated f bs := List.mem_map.2 ⟨b, hb, rfl⟩
    refine hinv.1.top _ (List.mem_append_right _ hmem) ?_ ⟨v, fun o => .fin (f v o)⟩ (List.mem_map.2 ⟨v, hv, rfl⟩)
    intro r hr
    obtain ⟨w, _, rfl⟩ := List.mem_map.1 hr
    rfl

/-! ### The children -/

section child
variable {Ω : Type} {A : Args ℝ} {cfg : Cfg l m} {o : Ops Ω n l}

theorem children_inside (hb : ∀ j, o.lb j < o.ub j) (ω : Ω) (d : Draws n l) (pop : List (Row l)) : Inside o.lb o.ub (children o ω d pop) := by
  intro v hv j
  obtain ⟨i, rfl⟩ := List.mem_ofFn.mp hv
  have clamp : ∀ y, o.lb j ≤ Operators.respectBounds (some (o.lb j)) (some (o.ub j)) y ∧ Operators.respectBounds (some (o.lb j)) (some (o.ub j)) y ≤ o.ub j := fun y =>
    have := Operators.respectBounds_within (some (o.lb j)) (some (o.ub j)) (by rintro a b ⟨⟩ ⟨⟩; exact (hb j).le) y
    ⟨this.1 _ rfl, this.2 _ rfl⟩
  dsimp only
  split
  · exact clamp _
  · dsimp only [Operators.polynomialMutation]
    generalize (if _ = true then _ else _ : Option ℝ) = y
    cases y with
    | none => exact ⟨le_rfl, (hb j).le⟩
    | some y => exact clamp y

/-- Wherever the parents are, the draws which bring a child into a box have a chance bounded below. -/
theorem lands (hP : Proper A cfg o) {a b : Fin l → ℝ} (hab : ∀ j, o.lb j ≤ a j ∧ a j < b j ∧ b j ≤ o.ub j) :
    ∃ δ : ℝ≥0∞, 0 < δ ∧ ∀ ω pop, Inside o.lb o.ub (values pop) → ∃ E, MeasurableSet E ∧ δ ≤ law n l o.mutation E ∧ ∀ d ∈ E, ∃ v ∈ children o ω d pop, ∀ j, a j ≤ v j ∧ v j ≤ b j := by
  have hmut := hP.mutation
  cases hm : o.mutation with
  | gaussian prob stdev =>
    rw [hm] at hmut
    obtain ⟨hs, hp0, hp1⟩ := hmut
    refine ⟨ENNReal.ofReal (∏ _j : Fin l, prob) * ENNReal.ofReal (∏ j, (b j - a j) / stdev * gaussianPDFReal 0 1 ((o.ub j - o.lb j) / stdev)), ENNReal.mul_pos ?_ ?_, fun ω pop hin => ?_⟩
    · exact (ENNReal.ofReal_pos.mpr (Finset.prod_pos fun _ _ => hp0)).ne'
    · exact (ENNReal.ofReal_pos.mpr (Finset.prod_pos fun j _ => mul_pos (div_pos (by linarith [(hab j).2.1]) hs) (gaussianPDFReal_pos _ _ _ one_ne_zero))).ne'
    · have hx := hP.before ω pop hin
      refine ⟨mask ⟨0, hP.children⟩ prob ×ˢ moves ⟨0, hP.children⟩ stdev (o.before ω pop ⟨0, hP.children⟩) a b,
        (GlobalSearch.mask_measurable _ _).prod (GlobalSearch.moves_measurable _ _ _ _ _), ?_, ?_⟩
      · unfold law
        rw [Measure.prod_prod]
        exact mul_le_mul' (GlobalSearch.mask_chance _ hp0.le hp1) (GlobalSearch.moves_chance _ hs (hx _) fun j => ⟨(hab j).1, (hab j).2.1.le, (hab j).2.2⟩)
      · rintro ⟨u, g⟩ ⟨hu, hg⟩
        refine ⟨_, List.mem_ofFn.mpr ⟨⟨0, hP.children⟩, rfl⟩, fun j => ?_⟩
        have h1 : u ⟨0, hP.children⟩ j ≤ prob := hu _ (by simp) j trivial
        obtain ⟨h3, h4⟩ := hg ⟨0, hP.children⟩ (by simp) j trivial
        rw [div_le_iff₀ hs] at h3
        rw [le_div_iff₀ hs] at h4
        have := hab j
        dsimp only
        rw [hm]
        dsimp only
        unfold Operators.gaussianMutation
        rw [if_pos h1, GlobalSearch.clamp_id (by linarith) (by linarith)]
        exact ⟨by linarith, by linarith⟩
  | polynomial prob eta =>
    rw [hm] at hmut
    obtain ⟨δ, hδ, h⟩ := GlobalPolynomial.mutation_hits hP.children hmut.1 hmut.2 hP.bounds hab
    refine ⟨δ, hδ, fun ω pop hin => ?_⟩
    obtain ⟨E, hE, hδE, hw⟩ := h (o.before ω pop) (hP.before ω pop hin)
    refine ⟨E, hE, hδE, fun d hd => ⟨_, List.mem_ofFn.mpr ⟨⟨0, hP.children⟩, rfl⟩, fun j => ?_⟩⟩
    obtain ⟨y, hy, h1, h2⟩ := hw d hd j
    rw [hm]
    dsimp only
    rw [hy]
    exact ⟨h1, h2⟩

theorem values_marked (vals : List (Fin l → ℝ)) : values (marked vals) = vals := by simp [values, marked, Function.comp_def]

theorem values_parents (cfg : Cfg l m) (first : Bool) (pop : List (Row l)) : values (parents cfg first pop) = values pop := by
  unfold parents
  split <;> split <;> simp only [values_marked]

theorem next_inside (hk : ∀ k pop, ∀ v ∈ cfg.keep k pop, v ∈ pop) (f : (Fin l → ℝ) → Fin m → ℝ) {lb ub : Fin l → ℝ} {pop : List (Row l)} {kids : List (Fin l → ℝ)} (h1 : Inside lb ub (values pop))
    (h2 : Inside lb ub kids) : Inside lb ub (values (next cfg f pop kids)) := by
  intro v hv
  unfold next at hv
  split at hv
  · rw [values_marked] at hv
    obtain ⟨i, _, hi⟩ := ParetoRuns.mem_step.1 hv
    rcases List.mem_append.1 (List.mem_of_getElem? hi) with h | h
    · exact h1 v h
    · exact h2 v h
  · split at hv
    · obtain ⟨w, hw, rfl⟩ := List.mem_map.1 hv
      rcases List.mem_append.1 hw with h | h
      · exact h1 _ (List.mem_map.2 ⟨w, hk _ _ w h, rfl⟩)
      · exact h2 _ (values_marked kids ▸ List.mem_map.2 ⟨w, h, rfl⟩)
    · split at hv
      · exact h2 v (values_marked kids ▸ hv)
      · obtain ⟨w, hw, rfl⟩ := List.mem_map.1 hv
        exact h2 _ (values_marked kids ▸ List.mem_map.2 ⟨w, hk _ _ w hw, rfl⟩)

theorem kids_evaluated (cfg : Cfg l m) (first : Bool) (pop kids : List (Fin l → ℝ)) : ∃ b ∈ batches cfg first pop kids, ∀ v ∈ kids, v ∈ b := by
  unfold batches
  split
  · split
    · exact ⟨kids, by simp, fun _ h => h⟩
    · exact ⟨_, List.mem_singleton_self _, fun _ h => List.mem_append_right _ h⟩
  · split
    · exact ⟨kids, by simp, fun _ h => h⟩
    · exact ⟨kids, by simp, fun _ h => h⟩

end child

/-! ### The claims -/

section claims
variable {Ω : Type} [MeasurableSpace Ω] (P : Measure Ω) [IsProbabilityMeasure P] {A : Args ℝ} {cfg : Cfg l m} {o : Ops Ω n l} (f : (Fin l → ℝ) → Fin m → ℝ)

/-- **C186 (rate).** For every box inside the bounds there is a positive `δ` such that, if all points of the box are at least as good as `c` in objective `q`, then from any initial solutions inside the bounds the chance
that after `k` generations the best solution reported for objective `q` is not at least as good as `c` in this objective is at most `(1 - δ) ^ k`. -/
theorem C186_rate (hP : Proper A cfg o) {a b : Fin l → ℝ} (hab : ∀ j, o.lb j ≤ a j ∧ a j < b j ∧ b j ≤ o.ub j) :
    ∃ δ : ℝ≥0∞, 0 < δ ∧ ∀ (f : (Fin l → ℝ) → Fin m → ℝ) (q : Fin m) (c : ℝ), (∀ v, (∀ j, a j ≤ v j ∧ v j ≤ b j) → NotWorse (cfg.senses q) (f v q) c) → ∀ vals : List (Fin l → ℝ), Inside o.lb o.ub vals →
      ∀ k, chanceNot P (law n l o.mutation) (generation A cfg o f) (Reports cfg.senses f q c) k (start vals) ≤ (1 - δ) ^ k := by
  obtain ⟨δ, hδ, hit⟩ := lands hP hab
  refine ⟨δ, hδ, fun f q c hgood vals hv k => ?_⟩
  refine GlobalPolynomial.chance_le P _ _ (inv := fun st => Inside o.lb o.ub (values st.population) ∧ Honest cfg.senses f st.stats) ?_ ?_ ?_ k _ ⟨?_, [], by simp, fun j => BestWorst.trackInv_init _ j⟩
  · intro ω d st h
    exact ⟨next_inside hP.keep f (by rw [values_parents]; exact h.1) (children_inside hP.bounds _ _ _), track_honest hP.args cfg.senses f _ _ h.2⟩
  · exact fun ω d st h hr => track_reports hP.args cfg.senses f q c _ st _ h.2 rfl (.inl hr)
  · intro ω st h
    obtain ⟨E, hE, hδE, hw⟩ := hit ω (parents cfg st.first st.population) (by rw [values_parents]; exact h.1)
    refine ⟨E, hE, hδE, fun d hd => ?_⟩
    obtain ⟨v, hv, hbox⟩ := hw d hd
    obtain ⟨bt, hbt, hm⟩ := kids_evaluated cfg st.first (values (parents cfg st.first st.population)) (children o ω d (parents cfg st.first st.population))
    exact track_reports hP.args cfg.senses f q c _ st _ h.2 rfl (.inr ⟨bt, hbt, v, hm v hv, hgood v hbox⟩)
  · intro v hv'
    obtain ⟨w, hw, rfl⟩ := List.mem_map.1 hv'
    obtain ⟨u, hu, rfl⟩ := List.mem_map.1 hw
    exact hv _ hu

/-- Around every point within the bounds there is a box whose points have almost its fitness. -/
theorem box {lb ub : Fin l → ℝ} (hb : ∀ j, lb j < ub j) (s : Sense) {g : (Fin l → ℝ) → ℝ} (hf : ContinuousOn g (Set.Icc lb ub)) {x : Fin l → ℝ} (hx : x ∈ Set.Icc lb ub) {ε : ℝ} (hε : 0 < ε) :
    ∃ a b : Fin l → ℝ, (∀ j, lb j ≤ a j ∧ a j < b j ∧ b j ≤ ub j) ∧ ∀ v, (∀ j, a j ≤ v j ∧ v j ≤ b j) → NotWorse s (g v) (slack s (g x) ε) := by
  obtain ⟨a, b, hab, h⟩ := Illumination.cell_box (feats := []) g hb s hf (by simp) (cell := []) hx List.Forall₂.nil hε
  exact ⟨a, b, hab, fun v hv => (h v hv).2⟩

/-- **C186 (convergence).** If objective `q` is continuous within the bounds, then for every point `x` within the bounds (the optimum of this objective, say) and every `ε > 0`, the chance that after `k` generations the best
solution reported for objective `q` is not within `ε` of `x` in this objective, or better, tends to 0. -/
theorem C186_converges (hP : Proper A cfg o) (q : Fin m) (hf : ContinuousOn (fun v => f v q) (Set.Icc o.lb o.ub)) {x : Fin l → ℝ} (hx : x ∈ Set.Icc o.lb o.ub) {ε : ℝ} (hε : 0 < ε) (vals : List (Fin l → ℝ))
    (hv : Inside o.lb o.ub vals) :
    Filter.Tendsto (fun k => chanceNot P (law n l o.mutation) (generation A cfg o f) (Reports cfg.senses f q (slack (cfg.senses q) (f x q) ε)) k (start vals)) Filter.atTop (nhds 0) := by
  obtain ⟨a, b, hab, hgood⟩ := box hP.bounds (cfg.senses q) hf hx hε
  obtain ⟨δ, hδ, h⟩ := C186_rate P hP hab
  exact GlobalPolynomial.tends hδ (h f q _ hgood vals hv)

/-- **C186 (all objectives).** The chance that after `k` generations some objective's reported best is not almost as good as the given point for this objective tends to 0. -/
theorem C186_all_objectives (hP : Proper A cfg o) (hf : ∀ q, ContinuousOn (fun v => f v q) (Set.Icc o.lb o.ub)) (x : Fin m → Fin l → ℝ) (hx : ∀ q, x q ∈ Set.Icc o.lb o.ub) {ε : ℝ} (hε : 0 < ε)
    (vals : List (Fin l → ℝ)) (hv : Inside o.lb o.ub vals) :
    Filter.Tendsto (fun k => chanceNot P (law n l o.mutation) (generation A cfg o f) (fun st => ∀ q, Reports cfg.senses f q (slack (cfg.senses q) (f (x q) q) ε) st) k (start vals)) Filter.atTop (nhds 0) := by
  have hsum : Filter.Tendsto (fun k => ∑ q : Fin m, chanceNot P (law n l o.mutation) (generation A cfg o f) (Reports cfg.senses f q (slack (cfg.senses q) (f (x q) q) ε)) k (start vals))
      Filter.atTop (nhds (∑ q : Fin m, 0)) := tendsto_finsetSum _ fun q _ => C186_converges P f hP q (hf q) (hx q) hε vals hv
  rw [Finset.sum_const_zero] at hsum
  refine tendsto_of_tendsto_of_tendsto_of_le_of_le tendsto_const_nhds hsum (fun k => bot_le) (fun k => ?_)
  have := IlluminationPolynomial.chance_forall P (law n l o.mutation) (generation A cfg o f) Finset.univ (fun q => Reports cfg.senses f q (slack (cfg.senses q) (f (x q) q) ε)) k (start vals)
  simpa using this

end claims

/-! ### A concrete case -/

/-- One gene in `[0, 1]`, to be made small and large at once, with a population of one solution. -/
noncomputable def exOps (mu : Mutation) : Ops Unit 1 1 := ⟨fun _ pop _ => (values pop).headD fun _ => 0, fun _ => 0, fun _ => 1, mu⟩
noncomputable def exCfg (elitist : Bool) : Cfg 1 2 := ⟨![.min, .max], 1, elitist, true, true, fun l => List.range l.length, fun l => List.range l.length, fun k pop => pop.take k⟩

theorem exProper (elitist : Bool) {mu : Mutation} (h : mu.Real) : Proper BestWorst.refArgs (exCfg elitist) (exOps mu) where
  args := BestWorst.refArgs_spec
  children := Nat.one_pos
  mutation := h
  bounds := fun _ => zero_lt_one
  before := by
    intro ω pop hin i j
    cases pop with
    | nil => exact ⟨le_rfl, zero_le_one⟩
    | cons v pop => exact hin v.1 (by simp [values]) j
  keep := fun k pop v hv => List.mem_of_mem_take hv

/-- Although the population has place for one solution only, both optima are nearly reported in the end: with either mutation, with or without elitism. -/
example (elitist : Bool) (mu : Mutation) (h : mu = .gaussian (1 / 10) (1 / 100) ∨ mu = .polynomial none 20) :
    Filter.Tendsto (fun k => chanceNot (Measure.dirac ()) (law 1 1 mu) (generation BestWorst.refArgs (exCfg elitist) (exOps mu) fun v _ => v 0)
      (fun st => ∀ q, Reports ![.min, .max] (fun v _ => v 0) q (slack (![.min, .max] q) ((![fun _ => 0, fun _ => 1] q : Fin 1 → ℝ) 0) (1 / 100)) st) k (start [fun _ => 1 / 2])) Filter.atTop (nhds 0) := by
  have hr : mu.Real := by rcases h with rfl | rfl <;> simp [Mutation.Real] <;> norm_num
  refine C186_all_objectives (Measure.dirac ()) (fun (v : Fin 1 → ℝ) (_ : Fin 2) => v 0) (exProper elitist hr) (fun q => Continuous.continuousOn (by fun_prop)) ![fun _ => 0, fun _ => 1] ?_ (by norm_num) [fun _ => 1 / 2] ?_
  · intro q
    fin_cases q <;> exact ⟨fun _ => by simp [exOps], fun _ => by simp [exOps]⟩
  · intro v hv j
    simp only [List.mem_singleton] at hv
    subst hv
    simp only [exOps]
    norm_num

end EvoTorch.ParetoReports
