import Verif.Model.IlluminationPolynomial
import Verif.Props.Illumination
import Verif.Props.GlobalPolynomial
/-!
C185: MAP-Elites with polynomial mutation fills every cell that can be reached, in the limit, with solutions as good as any.
-/
namespace EvoTorch.IlluminationPolynomial
open EvoTorch
open EvoTorch.GA (Row)
open EvoTorch.BestWorst (Sense ArgSpec)
open EvoTorch.MapElites (Ev Cell Cfg State Good)
open EvoTorch.Selection (NotWorse)
open EvoTorch.GlobalSearch (upper)
open EvoTorch.GlobalPolynomial (chanceNot draws)
open EvoTorch.Illumination (InCell InInterior Holds Inside evalRow)
open MeasureTheory
open scoped ENNReal
variable {n l : Nat}

/-- The settings: at least one child, `eta > -1`, a positive mutation probability (or none), finite bounds, other operators that keep inside the bounds, features as many as the cells have. -/
structure Proper {Ω : Type} (cfg : Cfg ℝ) (o : Ops Ω n l) (feats : List ((Fin l → ℝ) → ℝ)) : Prop where
  args : ArgSpec cfg.A
  cells : ∀ cell ∈ cfg.grid, cell.length = feats.length
  children : 0 < n
  eta : 0 < o.eta + 1
  prob : ∀ p, o.prob = some p → 0 < p
  bounds : ∀ j, o.lb j < o.ub j
  before : ∀ ω rows, (∀ r ∈ rows, ∀ j, o.lb j ≤ r.val j ∧ r.val j ≤ o.ub j) → ∀ i j, o.lb j ≤ o.before ω rows i j ∧ o.before ω rows i j ≤ o.ub j

/-! ### Several wishes at once -/

section general
variable {S Ω Δ : Type} [MeasurableSpace Ω] [MeasurableSpace Δ] (P : Measure Ω) (Q : Measure Δ) (gen : Ω → Δ → S → S)

theorem chance_and (w1 w2 : S → Prop) (k : Nat) : ∀ st, chanceNot P Q gen (fun st => w1 st ∧ w2 st) k st ≤ chanceNot P Q gen w1 k st + chanceNot P Q gen w2 k st := by
  induction k with
  | zero =>
    intro st
    simp only [chanceNot]
    by_cases h1 : w1 st <;> by_cases h2 : w2 st <;> simp [h1, h2]
  | succ k ih =>
    intro st
    exact le_trans (Illumination.upper_mono P fun ω => le_trans (Illumination.upper_mono _ fun d => ih _) (Illumination.upper_add _ _ _)) (Illumination.upper_add _ _ _)

theorem chance_forall {ι : Type} [IsProbabilityMeasure P] [IsProbabilityMeasure Q] (I : Finset ι) (w : ι → S → Prop) (k : Nat) (st : S) :
    chanceNot P Q gen (fun st => ∀ i ∈ I, w i st) k st ≤ ∑ i ∈ I, chanceNot P Q gen (w i) k st := by
  classical
  induction I using Finset.induction_on with
  | empty =>
    have : chanceNot P Q gen (fun st => ∀ i ∈ (∅ : Finset ι), w i st) k st = 0 :=
      GlobalPolynomial.chance_zero P Q gen (inv := fun _ => True) (fun _ _ _ _ => trivial) (fun _ _ _ _ _ => by simp) k st trivial (by simp)
    rw [this]; exact bot_le
  | insert j I hj ih =>
    rw [Finset.sum_insert hj]
    have : (fun st => ∀ i ∈ insert j I, w i st) = fun st => w j st ∧ ∀ i ∈ I, w i st := by
      funext st; simp
    rw [this]
    exact (chance_and P Q gen _ _ k st).trans (add_le_add le_rfl ih)

end general

/-! ### The children -/

section child
variable {Ω : Type} {cfg : Cfg ℝ} {o : Ops Ω n l} {feats : List ((Fin l → ℝ) → ℝ)}

theorem children_inside (hb : ∀ j, o.lb j ≤ o.ub j) (ω : Ω) (d : (Fin n → Fin l → ℝ) × (Fin n → Fin l → ℝ)) (rows : List (Row (Fin l → ℝ) (Ev ℝ))) : Inside o.lb o.ub (children o ω d rows) := by
  intro r hr j
  obtain ⟨i, rfl⟩ := List.mem_ofFn.mp hr
  dsimp only [Operators.polynomialMutation]
  generalize (if GlobalPolynomial.selects o.prob (d.1 i j) = true then Operators.polyMutated o.eta (o.lb j) (o.ub j) (d.2 i j) (o.before ω rows i j) else some (o.before ω rows i j)) = y
  cases y with
  | none => exact ⟨le_rfl, hb j⟩
  | some y =>
    have := Operators.respectBounds_within (some (o.lb j)) (some (o.ub j)) (by rintro a b ⟨⟩ ⟨⟩; exact hb j) y
    exact ⟨this.1 _ rfl, this.2 _ rfl⟩

theorem lands (hP : Proper cfg o feats) {a b : Fin l → ℝ} (hab : ∀ j, o.lb j ≤ a j ∧ a j < b j ∧ b j ≤ o.ub j) :
    ∃ δ : ℝ≥0∞, 0 < δ ∧ ∀ ω rows, Inside o.lb o.ub rows → ∃ E, MeasurableSet E ∧ δ ≤ draws n l E ∧ ∀ d ∈ E, ∃ r ∈ children o ω d rows, ∀ j, a j ≤ r.val j ∧ r.val j ≤ b j := by
  obtain ⟨δ, hδ, h⟩ := GlobalPolynomial.mutation_hits hP.children hP.eta hP.prob hP.bounds hab
  refine ⟨δ, hδ, fun ω rows hin => ?_⟩
  obtain ⟨E, hE, hδE, hw⟩ := h (o.before ω rows) (hP.before ω rows hin)
  refine ⟨E, hE, hδE, fun d hd => ⟨_, List.mem_ofFn.mpr ⟨⟨0, hP.children⟩, rfl⟩, fun j => ?_⟩⟩
  obtain ⟨y, hy, h1, h2⟩ := hw d hd j
  dsimp only
  rw [hy]
  exact ⟨h1, h2⟩

end child

/-! ### The claims -/

section claims
variable {Ω : Type} [MeasurableSpace Ω] (P : Measure Ω) [IsProbabilityMeasure P] {cfg : Cfg ℝ} {o : Ops Ω n l} (fit : (Fin l → ℝ) → ℝ) {feats : List ((Fin l → ℝ) → ℝ)}

/-- **C185 (rate).** For every box inside the bounds there is a positive `δ` such that for every fitness: if every point of the box has its features in cell number `i` and a fitness not worse than `c`, then from any
initial solutions inside the bounds the chance that after `k` generations the cell is not filled with a solution at least as good as `c` is at most `(1 - δ) ^ k`. -/
theorem C185_rate (hP : Proper cfg o feats) {a b : Fin l → ℝ} (hab : ∀ j, o.lb j ≤ a j ∧ a j < b j ∧ b j ≤ o.ub j) :
    ∃ δ : ℝ≥0∞, 0 < δ ∧ ∀ (fit : (Fin l → ℝ) → ℝ) (i : Nat) (cell : Cell ℝ), cfg.grid[i]? = some cell → ∀ c : ℝ,
      (∀ v, (∀ j, a j ≤ v j ∧ v j ≤ b j) → InCell cell feats v ∧ NotWorse cfg.sense (fit v) c) → ∀ vals : List (Fin l → ℝ), vals.length = cfg.grid.length →
      (∀ v ∈ vals, ∀ j, o.lb j ≤ v j ∧ v j ≤ o.ub j) → ∀ k, chanceNot P (draws n l) (generation cfg o fit feats) (Holds cfg fit feats i c) k (MapElites.init vals) ≤ (1 - δ) ^ k := by
  obtain ⟨δ, hδ, hit⟩ := lands hP hab
  refine ⟨δ, hδ, fun fit i cell hi c hgood vals hl hv k => ?_⟩
  have hgrid : cfg.grid ≠ [] := by intro h; rw [h] at hi; simp at hi
  have hkids : ∀ ω d rows, Inside o.lb o.ub (children o ω d rows) := fun ω d rows => children_inside (fun j => (hP.bounds j).le) ω d rows
  refine GlobalPolynomial.chance_le P (draws n l) _ (inv := fun st => Good (evalRow fit feats) st ∧ st.population ≠ [] ∧ Inside o.lb o.ub st.population) ?_ ?_ ?_ k _ ?_
  · intro ω d st hst
    obtain ⟨ev, _, h⟩ := Illumination.step_facts fit feats hP.args hP.cells hgrid st hst
    exact (h _ (hkids ω d ev)).1
  · rintro ω d st hst ⟨-, cell', r, hc', hr, hin, hnw⟩
    obtain ⟨ev, _, h⟩ := Illumination.step_facts fit feats hP.args hP.cells hgrid st hst
    exact (h _ (hkids ω d ev)).2 i cell' hc' r (.inl (List.mem_of_getElem? hr)) hin c hnw
  · intro ω st hst
    obtain ⟨ev, hevi, h⟩ := Illumination.step_facts fit feats hP.args hP.cells hgrid st hst
    obtain ⟨E, hE, hδE, hw⟩ := hit ω ev hevi
    refine ⟨E, hE, hδE, fun d hd => ?_⟩
    obtain ⟨r, hr, hbox⟩ := hw d hd
    exact (h _ (hkids ω d ev)).2 i cell hi r (.inr hr) (hgood _ hbox).1 c (hgood _ hbox).2
  · refine ⟨.inl rfl, ?_, ?_⟩
    · intro h
      have hl0 : (MapElites.init vals : State (Fin l → ℝ) ℝ).population.length = 0 := by rw [h]; rfl
      simp only [MapElites.init, List.length_map] at hl0
      exact hgrid (List.length_eq_zero_iff.mp (by omega))
    · intro r hr
      obtain ⟨v, hvm, rfl⟩ := List.mem_map.mp hr
      exact hv v hvm

/-- **C185 (convergence).** With a fitness and features that are continuous within the bounds, for every point `x` within the bounds whose features lie in the interior of cell number `i`, and every
`ε > 0`, the chance that after `k` generations the cell is not filled with a solution within `ε` of the fitness of `x`, or better, tends to 0. -/
theorem C185_converges (hP : Proper cfg o feats) (hf : ContinuousOn fit (Set.Icc o.lb o.ub)) (hp : ∀ p ∈ feats, ContinuousOn p (Set.Icc o.lb o.ub)) {i : Nat} {cell : Cell ℝ}
    (hi : cfg.grid[i]? = some cell) {x : Fin l → ℝ} (hx : x ∈ Set.Icc o.lb o.ub) (hxc : InInterior cell feats x) {ε : ℝ} (hε : 0 < ε) (vals : List (Fin l → ℝ))
    (hl : vals.length = cfg.grid.length) (hv : ∀ v ∈ vals, ∀ j, o.lb j ≤ v j ∧ v j ≤ o.ub j) :
    Filter.Tendsto (fun k => chanceNot P (draws n l) (generation cfg o fit feats) (Holds cfg fit feats i (GlobalSearch.slack cfg.sense (fit x) ε)) k (MapElites.init vals)) Filter.atTop (nhds 0) := by
  obtain ⟨a, b, hab, hgood⟩ := Illumination.cell_box fit hP.bounds cfg.sense hf hp hx hxc hε
  obtain ⟨δ, hδ, h⟩ := C185_rate P hP hab
  exact GlobalPolynomial.tends hδ (h fit i cell hi _ hgood vals hl hv)

/-- **C185 (all cells).** The chance that after `k` generations not all cells of a set are filled with solutions almost as good as given points in their interiors, or better, tends to 0. -/
theorem C185_all_cells (hP : Proper cfg o feats) (hf : ContinuousOn fit (Set.Icc o.lb o.ub)) (hp : ∀ p ∈ feats, ContinuousOn p (Set.Icc o.lb o.ub)) (I : Finset Nat) (x : Nat → Fin l → ℝ)
    (hx : ∀ i ∈ I, x i ∈ Set.Icc o.lb o.ub ∧ ∃ cell, cfg.grid[i]? = some cell ∧ InInterior cell feats (x i)) {ε : ℝ} (hε : 0 < ε) (vals : List (Fin l → ℝ)) (hl : vals.length = cfg.grid.length)
    (hv : ∀ v ∈ vals, ∀ j, o.lb j ≤ v j ∧ v j ≤ o.ub j) :
    Filter.Tendsto (fun k => chanceNot P (draws n l) (generation cfg o fit feats) (fun st => ∀ i ∈ I, Holds cfg fit feats i (GlobalSearch.slack cfg.sense (fit (x i)) ε) st) k (MapElites.init vals))
      Filter.atTop (nhds 0) := by
  have hsum : Filter.Tendsto (fun k => ∑ i ∈ I, chanceNot P (draws n l) (generation cfg o fit feats) (Holds cfg fit feats i (GlobalSearch.slack cfg.sense (fit (x i)) ε)) k (MapElites.init vals))
      Filter.atTop (nhds (∑ i ∈ I, 0)) := tendsto_finsetSum I fun i hiI => by
    obtain ⟨h1, cell, h2, h3⟩ := hx i hiI
    exact C185_converges P fit hP hf hp h2 h1 h3 hε vals hl hv
  rw [Finset.sum_const_zero] at hsum
  exact tendsto_of_tendsto_of_tendsto_of_le_of_le tendsto_const_nhds hsum (fun k => bot_le) (fun k => chance_forall P _ _ I _ k _)

end claims

/-! ### A concrete case -/

/-- The two cells of `Illumination.exCfg`; one gene in `[0, 1]`, mutated with the default `eta` and probability 1/10. -/
noncomputable def exOps : Ops Unit 1 1 := ⟨fun _ rows _ => (rows.head?.map (·.val)).getD fun _ => 0, fun _ => 0, fun _ => 1, some (1 / 10), 20⟩

theorem exProper : Proper Illumination.exCfg exOps [fun v => v 0] where
  args := BestWorst.refArgs_spec
  cells := Illumination.exProper.cells
  children := Nat.one_pos
  eta := by norm_num [exOps]
  prob := by
    rintro p ⟨⟩
    norm_num
  bounds := fun _ => zero_lt_one
  before := Illumination.exProper.before

/-- Both cells become filled, the first with a fitness of nearly 1/4, the second with one of nearly 3/4. -/
example : Filter.Tendsto (fun k => chanceNot (Measure.dirac ()) (draws 1 1) (generation Illumination.exCfg exOps (fun v => v 0) [fun v => v 0])
    (fun st => ∀ i ∈ ({0, 1} : Finset Nat), Holds Illumination.exCfg (fun v => v 0) [fun v => v 0] i (GlobalSearch.slack .max (if i = 0 then 1 / 4 else 3 / 4) (1 / 100)) st) k
    (MapElites.init [fun _ => 0, fun _ => 0])) Filter.atTop (nhds 0) := by
  have := C185_all_cells (Measure.dirac ()) (fun v : Fin 1 → ℝ => v 0) exProper (Continuous.continuousOn (by fun_prop)) (by intro p hp; simp at hp; rw [hp]; exact Continuous.continuousOn (by fun_prop))
    {0, 1} (fun i _ => if i = 0 then 1 / 4 else 3 / 4) (by
      intro i hi
      simp only [Finset.mem_insert, Finset.mem_singleton] at hi
      rcases hi with rfl | rfl
      · refine ⟨⟨fun j => ?_, fun j => ?_⟩, _, rfl, List.Forall₂.cons ⟨?_, ?_⟩ List.Forall₂.nil⟩ <;> simp [exOps, Flt.lt] <;> norm_num
      · refine ⟨⟨fun j => ?_, fun j => ?_⟩, _, rfl, List.Forall₂.cons ⟨?_, ?_⟩ List.Forall₂.nil⟩ <;> simp [exOps, Flt.lt] <;> norm_num)
    (ε := 1 / 100) (by norm_num) [fun _ => 0, fun _ => 0] rfl (by simp [exOps])
  exact this

end EvoTorch.IlluminationPolynomial
