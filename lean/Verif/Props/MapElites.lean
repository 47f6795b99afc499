import Verif.Model.MapElites
import Verif.Props.BestWorst
import Mathlib.Data.List.Forall2
import Mathlib.Algebra.BigOperators.Group.List.Basic
/-!
C33 (MAP-Elites never loses an elite) and C34 (feature grids cover the feature space).
-/
namespace EvoTorch.MapElites
open BestWorst (Sense Args ArgSpec Better)
variable {V K : Type} [LinearOrder K]

/-- Specification: a feature vector lies in a cell. -/
def InCell (cell : Cell K) (feats : List (Flt K)) : Prop :=
  List.Forall₂ (fun b x => Flt.le b.1 x = true ∧ Flt.le x b.2 = true) cell feats

theorem suitable_iff (cell : Cell K) (e : Ev K) (h : e.feats.length = cell.length) : suitable cell (some e) = true ↔ InCell cell e.feats := by
  obtain ⟨fit, feats⟩ := e
  simp only at h
  simp only [suitable, InCell]
  induction cell generalizing feats with
  | nil => simp at h; subst h; simp
  | cons b cell ih =>
    cases feats with
    | nil => simp at h
    | cons x feats => simp only [List.length_cons, Nat.add_right_cancel_iff] at h; simp [ih feats h, and_assoc]

/-- The evaluation of every row is that of `f`. -/
def Evaluated (f : V → Ev K) (rows : List (GA.Row V (Ev K))) : Prop := ∀ r ∈ rows, r.ev = some (f r.val)

theorem pick_spec {A : Args K} (hA : ArgSpec A) (s : Sense) (f : V → Ev K) (hf : ∀ v, ∃ x, (f v).fit = .fin x)
    (rows : List (GA.Row V (Ev K))) (hne : rows ≠ []) (hev : Evaluated f rows) (cell : Cell K) :
    ∃ r, rows[pick A s rows cell]? = some r ∧ r ∈ rows ∧
      ∀ q ∈ rows, suitable cell q.ev = true → suitable cell r.ev = true ∧ ¬ Better s (f q.val).fit (f r.val).fit := by
  have hfin : ∀ r ∈ rows, suitable cell r.ev = true → processed s cell r.ev = (f r.val).fit := by
    intro r hr h; rw [processed, if_pos h, hev r hr]; rfl
  have hpen : ∀ r, ¬ suitable cell r = true → processed s cell r = penalty s := by
    intro r h; rw [processed, if_neg h]
  have hnn : ∀ x ∈ rows.map (fun r => processed s cell r.ev), x.isNan = false := by
    intro x hx
    obtain ⟨r, hr, rfl⟩ := List.mem_map.mp hx
    by_cases h : suitable cell r.ev = true
    · rw [hfin r hr h]; obtain ⟨y, hy⟩ := hf r.val; rw [hy]; rfl
    · rw [hpen _ h]; cases s <;> rfl
  have hlt : pick A s rows cell < rows.length := by
    cases s
    · simpa [pick] using hA.min_mem (rows.map fun r => processed .min cell r.ev) (by simpa using hne)
    · simpa [pick] using hA.max_mem (rows.map fun r => processed .max cell r.ev) (by simpa using hne)
  refine ⟨_, List.getElem?_eq_getElem hlt, List.getElem_mem hlt, fun q hq hs => ?_⟩
  generalize hr : rows[pick A s rows cell] = r
  have hrm : r ∈ rows := hr ▸ List.getElem_mem hlt
  have hgr : rows[pick A s rows cell]? = some r := by rw [← hr]; exact List.getElem?_eq_getElem hlt
  have hqm : processed s cell q.ev ∈ rows.map fun r => processed s cell r.ev := List.mem_map.mpr ⟨q, hq, rfl⟩
  obtain ⟨y, hy⟩ := hf q.val
  have hbest : ¬ Better s (processed s cell q.ev) (processed s cell r.ev) := by
    cases s
    · have := hA.min_le _ hnn (processed .min cell r.ev) (by rw [List.getElem?_map]; show Option.map _ rows[pick A .min rows cell]? = _; rw [hgr]; rfl) _ hqm
      simp [Better, this]
    · have := hA.max_ge _ hnn (processed .max cell r.ev) (by rw [List.getElem?_map]; show Option.map _ rows[pick A .max rows cell]? = _; rw [hgr]; rfl) _ hqm
      simp [Better, this]
  rw [hfin q hq hs] at hbest
  by_cases h : suitable cell r.ev = true
  · rw [hfin r hrm h] at hbest; exact ⟨h, hbest⟩
  · exfalso; apply hbest
    rw [hpen _ h, hy]; cases s <;> simp [Better, Flt.lt, penalty]

/-- A step uses the fitness function `f` in all its evaluations. -/
def Deterministic (f : V → Ev K) (env : GA.Env V (Ev K)) : Prop := env.f1 = f ∧ env.f2 = f

/-- The state invariant: rows are evaluated by `f`, except before the first step. -/
def Good (f : V → Ev K) (st : State V K) : Prop := st.firstIter = true ∨ Evaluated f st.population

omit [LinearOrder K] in
theorem evaluated_evaluate (f : V → Ev K) (rows : List (GA.Row V (Ev K))) : Evaluated f (GA.evaluate f rows) := by
  intro r hr; obtain ⟨q, _, rfl⟩ := List.mem_map.mp hr; rfl

omit [LinearOrder K] in
theorem evaluate_id (f : V → Ev K) (rows : List (GA.Row V (Ev K))) (h : Evaluated f rows) : GA.evaluate f rows = rows := by
  have : ∀ r ∈ rows, ({ r with ev := some (f r.val) } : GA.Row V (Ev K)) = r := by
    intro r hr; obtain ⟨v, e⟩ := r; have := h _ hr; simp only at this; rw [this]
  rw [GA.evaluate, List.map_congr_left this]; simp

omit [LinearOrder K] in
/-- The extended population: the evaluated parents followed by evaluated children. -/
theorem extended_spec (cfg : Cfg K) (f : V → Ev K) (env : GA.Env V (Ev K)) (hd : Deterministic f env) (st : State V K) (hg : Good f st) :
    ∃ children, extended cfg env st = GA.evaluate f st.population ++ GA.evaluate f children := by
  obtain ⟨h1, h2⟩ := hd
  simp only [extended, GA.makeExtended, Cfg.ga, h1, h2]
  by_cases hre : cfg.reEvaluate = true
  · rw [if_pos hre]
    by_cases hpf : cfg.parentsFirst = true
    · rw [if_pos hpf]; exact ⟨_, rfl⟩
    · rw [if_neg hpf]
      refine ⟨env.ops st.population, ?_⟩
      simp only [List.take_append_drop]
      simp [GA.evaluate]
  · rw [if_neg hre]
    by_cases hfi : st.firstIter = true
    · simp only [if_pos hfi]; exact ⟨_, rfl⟩
    · simp only [if_neg hfi]
      refine ⟨env.ops st.population, ?_⟩
      rw [evaluate_id f st.population (hg.resolve_left hfi)]

theorem filterMap_getElem {α β : Type} (g : α → Option β) (l : List α) (h : ∀ a ∈ l, (g a).isSome) (i : Nat) :
    (l.filterMap g)[i]? = l[i]?.bind g := by
  induction l generalizing i with
  | nil => simp
  | cons a l ih =>
    obtain ⟨b, hb⟩ := Option.isSome_iff_exists.mp (h a (by simp))
    rw [List.filterMap_cons, hb]
    cases i with
    | zero => simp [hb]
    | succ i => simpa using ih (fun x hx => h x (List.mem_cons_of_mem _ hx)) i

/-- One step, from any state whose rows are evaluated (or before the first step). -/
theorem step_spec (cfg : Cfg K) (hA : ArgSpec cfg.A) (f : V → Ev K) (hf : ∀ v, ∃ x, (f v).fit = .fin x) (env : GA.Env V (Ev K))
    (hd : Deterministic f env) (st : State V K) (hg : Good f st) (hne : st.population ≠ []) :
    Good f (step cfg st env) ∧ (∀ (i : Nat) (cell : Cell K), cfg.grid[i]? = some cell → ∃ r, (step cfg st env).population[i]? = some r ∧ r ∈ extended cfg env st ∧
      r.ev = some (f r.val) ∧ (step cfg st env).filled[i]? = some (suitable cell r.ev) ∧
      ∀ q ∈ extended cfg env st, suitable cell q.ev = true → suitable cell r.ev = true ∧ ¬ Better cfg.sense (f q.val).fit (f r.val).fit) := by
  obtain ⟨children, hext⟩ := extended_spec cfg f env hd st hg
  have hev : Evaluated f (extended cfg env st) := by
    rw [hext]; intro r hr
    rcases List.mem_append.mp hr with h | h <;> exact evaluated_evaluate _ _ r h
  have hne' : extended cfg env st ≠ [] := by rw [hext]; simp [GA.evaluate, hne]
  have hp := fun cell => pick_spec hA cfg.sense f hf (extended cfg env st) hne' hev cell
  constructor
  · right
    intro r hr
    simp only [step, List.mem_filterMap] at hr
    obtain ⟨cell, _, hr⟩ := hr
    exact hev r (List.mem_of_getElem? hr)
  · intro i cell hi
    obtain ⟨r, hr, hrm, hbest⟩ := hp cell
    refine ⟨r, ?_, hrm, hev r hrm, ?_, hbest⟩
    · simp only [step]
      rw [filterMap_getElem _ _ (fun c _ => by obtain ⟨r, hr, _⟩ := hp c; simp [hr]), hi]
      exact hr
    · simp only [step]
      rw [filterMap_getElem _ _ (fun c _ => by obtain ⟨r, hr, _⟩ := hp c; simp [hr]), hi]
      simp [hr]

theorem step_length (cfg : Cfg K) (hA : ArgSpec cfg.A) (f : V → Ev K) (hf : ∀ v, ∃ x, (f v).fit = .fin x) (env : GA.Env V (Ev K))
    (hd : Deterministic f env) (st : State V K) (hg : Good f st) (hne : st.population ≠ []) (hgrid : cfg.grid ≠ []) :
    (step cfg st env).population ≠ [] := by
  obtain ⟨c, rest, hc⟩ := List.exists_cons_of_ne_nil hgrid
  obtain ⟨r, hr, _⟩ := (step_spec cfg hA f hf env hd st hg hne).2 0 c (by rw [hc]; rfl)
  intro h; rw [h] at hr; simp at hr

theorem run_good (cfg : Cfg K) (hA : ArgSpec cfg.A) (f : V → Ev K) (hf : ∀ v, ∃ x, (f v).fit = .fin x) (hgrid : cfg.grid ≠ [])
    (envs : List (GA.Env V (Ev K))) (hd : ∀ e ∈ envs, Deterministic f e) (st : State V K) (hg : Good f st) (hne : st.population ≠ []) :
    Good f (envs.foldl (step cfg) st) ∧ (envs.foldl (step cfg) st).population ≠ [] := by
  induction envs generalizing st with
  | nil => exact ⟨hg, hne⟩
  | cons e es ih =>
    have hde := hd e (by simp)
    exact ih (fun x hx => hd x (List.mem_cons_of_mem _ hx)) _ (step_spec cfg hA f hf e hde st hg hne).1
      (step_length cfg hA f hf e hde st hg hne hgrid)

theorem keep (cfg : Cfg K) (hA : ArgSpec cfg.A) (f : V → Ev K) (hf : ∀ v, ∃ x, (f v).fit = .fin x)
    (envs : List (GA.Env V (Ev K))) (hd : ∀ e ∈ envs, Deterministic f e) (st : State V K) (hg : Good f st) (i : Nat) (cell : Cell K)
    (hi : cfg.grid[i]? = some cell) (r : GA.Row V (Ev K)) (hr : st.population[i]? = some r) (hre : r.ev = some (f r.val))
    (hs : suitable cell r.ev = true) (hfill : st.filled[i]? = some true) :
    ∃ r2, (envs.foldl (step cfg) st).population[i]? = some r2 ∧ r2.ev = some (f r2.val) ∧ suitable cell r2.ev = true ∧
      (envs.foldl (step cfg) st).filled[i]? = some true ∧ ¬ Better cfg.sense (f r.val).fit (f r2.val).fit := by
  induction envs generalizing st r with
  | nil => exact ⟨r, hr, hre, hs, hfill, BestWorst.better_irrefl _ _⟩
  | cons e es ih =>
    have hde := hd e (by simp)
    have hne : st.population ≠ [] := by intro h; rw [h] at hr; simp at hr
    obtain ⟨hg', hstep⟩ := step_spec cfg hA f hf e hde st hg hne
    obtain ⟨r1, hr1, _, hev1, hf1, hbest⟩ := hstep i cell hi
    obtain ⟨children, hext⟩ := extended_spec cfg f e hde st hg
    have hmem : r ∈ extended cfg e st := by
      rw [hext]
      refine List.mem_append.mpr (Or.inl (List.mem_map.mpr ⟨r, List.mem_of_getElem? hr, ?_⟩))
      obtain ⟨v, ev⟩ := r; simp only at hre; rw [hre]
    obtain ⟨hs1, hb1⟩ := hbest r hmem hs
    obtain ⟨r2, h2, h3, h4, h5, h6⟩ := ih (fun x hx => hd x (List.mem_cons_of_mem _ hx)) _ hg' r1 hr1 hev1 hs1 (by rw [hf1, hs1])
    refine ⟨r2, h2, h3, h4, h5, ?_⟩
    obtain ⟨x, hx⟩ := hf r.val
    obtain ⟨x1, hx1⟩ := hf r1.val
    obtain ⟨x2, hx2⟩ := hf r2.val
    rw [hx, hx1] at hb1
    rw [hx1, hx2] at h6
    rw [hx, hx2]
    cases hse : cfg.sense <;> simp only [hse, Better, Flt.lt, decide_eq_true_eq, not_lt] at *
    · exact le_trans h6 hb1
    · exact le_trans hb1 h6

/-- **C33.** Any number of steps after construction, with a deterministic finite fitness, any operators and any `re_evaluate` options: a cell that
is filled holds an evaluated solution whose features lie in the cell; and after any number of further steps it is still filled, again by a
solution of the cell, which is not worse. -/
theorem C33_elites_kept (cfg : Cfg K) (hA : ArgSpec cfg.A) (f : V → Ev K) (hf : ∀ v, ∃ x, (f v).fit = .fin x)
    (hdim : ∀ v, ∀ cell ∈ cfg.grid, (f v).feats.length = cell.length) (vals : List V) (hl : vals.length = cfg.grid.length)
    (envs1 envs2 : List (GA.Env V (Ev K))) (hd1 : ∀ e ∈ envs1, Deterministic f e) (hd2 : ∀ e ∈ envs2, Deterministic f e)
    (i : Nat) (cell : Cell K) (hi : cfg.grid[i]? = some cell) :
    let s1 := envs1.foldl (step cfg) (init vals)
    let s2 := envs2.foldl (step cfg) s1
    s1.filled[i]? = some true →
    ∃ r1 r2, s1.population[i]? = some r1 ∧ r1.ev = some (f r1.val) ∧ InCell cell (f r1.val).feats ∧
      s2.filled[i]? = some true ∧ s2.population[i]? = some r2 ∧ r2.ev = some (f r2.val) ∧ InCell cell (f r2.val).feats ∧
      ¬ Better cfg.sense (f r1.val).fit (f r2.val).fit := by
  intro s1 s2 hfill
  have hgrid : cfg.grid ≠ [] := by intro h; rw [h] at hi; simp at hi
  have hcm : cell ∈ cfg.grid := List.mem_of_getElem? hi
  have h0 : Good f (init vals : State V K) := Or.inl rfl
  have hne0 : (init vals : State V K).population ≠ [] := by
    intro h
    have hl0 : (init vals : State V K).population.length = 0 := by rw [h]; rfl
    simp only [init, List.length_map] at hl0
    exact hgrid (List.length_eq_zero_iff.mp (by omega))
  have hgood := run_good cfg hA f hf hgrid envs1 hd1 _ h0 hne0
  -- the last step before s1
  rcases List.eq_nil_or_concat envs1 with h | ⟨es, e, h⟩
  · exfalso
    subst h
    simp only [s1, List.foldl_nil, init, List.getElem?_map] at hfill
    cases hv : vals[i]? <;> simp [hv] at hfill
  · rw [List.concat_eq_append] at h
    subst h
    have hprev := run_good cfg hA f hf hgrid es (fun x hx => hd1 x (by simp [hx])) _ h0 hne0
    obtain ⟨_, hstep⟩ := step_spec cfg hA f hf e (hd1 e (by simp)) _ hprev.1 hprev.2
    obtain ⟨r1, hr1, _, hev1, hf1, _⟩ := hstep i cell hi
    have hs1 : s1 = step cfg (es.foldl (step cfg) (init vals)) e := by simp [s1]
    rw [hs1, hf1] at hfill
    simp only [Option.some.injEq] at hfill
    obtain ⟨r2, h2, h3, h4, h5, h6⟩ := keep cfg hA f hf envs2 hd2 s1 hgood.1 i cell hi r1 (by rw [hs1]; exact hr1) hev1 hfill
      (by rw [hs1, hf1, hfill])
    refine ⟨r1, r2, by rw [hs1]; exact hr1, hev1, ?_, h5, h2, h3, ?_, h6⟩
    · rw [hev1] at hfill; exact (suitable_iff cell _ (hdim _ _ hcm)).mp hfill
    · rw [h3] at h4; exact (suitable_iff cell _ (hdim _ _ hcm)).mp h4

/-- **C33 (selection).** In every step after any history, a cell becomes filled exactly if some solution among the parents and the children of this
step lies in it, and then the solution it gets is one of those and none of those in the cell is better. -/
theorem C33_best_of_candidates (cfg : Cfg K) (hA : ArgSpec cfg.A) (f : V → Ev K) (hf : ∀ v, ∃ x, (f v).fit = .fin x)
    (hdim : ∀ v, ∀ cell ∈ cfg.grid, (f v).feats.length = cell.length) (vals : List V) (hl : vals.length = cfg.grid.length)
    (envs : List (GA.Env V (Ev K))) (env : GA.Env V (Ev K)) (hd : ∀ e ∈ envs, Deterministic f e) (hde : Deterministic f env)
    (i : Nat) (cell : Cell K) (hi : cfg.grid[i]? = some cell) :
    let s1 := envs.foldl (step cfg) (init vals)
    let s2 := step cfg s1 env
    ∃ children, extended cfg env s1 = GA.evaluate f s1.population ++ GA.evaluate f children ∧
      (s2.filled[i]? = some true ↔ ∃ q ∈ s1.population ++ children, InCell cell (f q.val).feats) ∧
      (s2.filled[i]? = some true → ∃ r q, s2.population[i]? = some r ∧ q ∈ s1.population ++ children ∧ r.val = q.val ∧ r.ev = some (f q.val) ∧
        ∀ q' ∈ s1.population ++ children, InCell cell (f q'.val).feats → ¬ Better cfg.sense (f q'.val).fit (f r.val).fit) := by
  intro s1 s2
  have hgrid : cfg.grid ≠ [] := by intro h; rw [h] at hi; simp at hi
  have hcm : cell ∈ cfg.grid := List.mem_of_getElem? hi
  have hne0 : (init vals : State V K).population ≠ [] := by
    intro h
    have hl0 : (init vals : State V K).population.length = 0 := by rw [h]; rfl
    simp only [init, List.length_map] at hl0
    exact hgrid (List.length_eq_zero_iff.mp (by omega))
  obtain ⟨hg, hne⟩ := run_good cfg hA f hf hgrid envs hd (init vals) (Or.inl rfl) hne0
  obtain ⟨children, hext⟩ := extended_spec cfg f env hde s1 hg
  obtain ⟨_, hstep⟩ := step_spec cfg hA f hf env hde s1 hg hne
  obtain ⟨r, hr, hrm, hev, hfill, hbest⟩ := hstep i cell hi
  have hmem : ∀ q, q ∈ s1.population ++ children → (⟨q.val, some (f q.val)⟩ : GA.Row V (Ev K)) ∈ extended cfg env s1 := by
    intro q hq
    rw [hext]
    rcases List.mem_append.mp hq with h | h
    · exact List.mem_append.mpr (Or.inl (List.mem_map.mpr ⟨q, h, rfl⟩))
    · exact List.mem_append.mpr (Or.inr (List.mem_map.mpr ⟨q, h, rfl⟩))
  have hsrc : ∃ q ∈ s1.population ++ children, r.val = q.val := by
    rw [hext] at hrm
    rcases List.mem_append.mp hrm with h | h
    · obtain ⟨q, hq, rfl⟩ := List.mem_map.mp h; exact ⟨q, List.mem_append.mpr (Or.inl hq), rfl⟩
    · obtain ⟨q, hq, rfl⟩ := List.mem_map.mp h; exact ⟨q, List.mem_append.mpr (Or.inr hq), rfl⟩
  obtain ⟨q0, hq0, hv0⟩ := hsrc
  have hsuit : ∀ q, suitable cell (some (f q)) = true ↔ InCell cell (f q).feats := fun q => suitable_iff cell _ (hdim q cell hcm)
  refine ⟨children, hext, ?_, fun _ => ⟨r, q0, hr, hq0, hv0, by rw [hev, hv0], fun q' hq' hin => ?_⟩⟩
  · show (step cfg s1 env).filled[i]? = some true ↔ _
    rw [hfill, Option.some.injEq]
    constructor
    · intro h; rw [hev] at h; exact ⟨q0, hq0, hv0 ▸ (hsuit _).mp h⟩
    · rintro ⟨q, hq, hin⟩
      exact (hbest _ (hmem q hq) ((hsuit _).mpr hin)).1
  · exact (hbest _ (hmem q' hq') ((hsuit _).mpr hin)).2

/-! A run with two cells: the first step fills the second cell, the second improves it. -/
section example33
private def exCfg : Cfg ℚ := ⟨BestWorst.refArgs, .max, [[(.ninf, .fin 0)], [(.fin 0, .pinf)]], false, true⟩
private def exF (v : ℚ) : Ev ℚ := ⟨.fin v, [.fin (v - 1)]⟩
private def exEnv : GA.Env ℚ (Ev ℚ) := ⟨exF, exF, fun rows => rows.map fun r => ⟨r.val + 1, none⟩⟩
example : let s1 := [exEnv].foldl (step exCfg) (init [(1 : ℚ) / 2, 1 / 4])
    let s2 := [exEnv].foldl (step exCfg) s1
    s1.filled = [true, true] ∧ s1.population.map (·.val) = [1 / 2, 3 / 2] ∧ s2.population.map (·.val) = [1 / 2, 5 / 2] := by decide +kernel
example : Deterministic exF exEnv ∧ (∀ v, ∃ x, (exF v).fit = .fin x) ∧ (∀ v, ∀ c ∈ exCfg.grid, (exF v).feats.length = c.length) :=
  ⟨⟨rfl, rfl⟩, fun v => ⟨v, rfl⟩, by simp [exCfg, exF]⟩
end example33

section C34

theorem le_of_not_le {a b : Flt K} (ha : a.isNan = false) (hb : b.isNan = false) (h : ¬ Flt.le a b = true) : Flt.le b a = true := by
  cases a <;> cases b <;> simp_all [Flt.le, Flt.isNan]
  exact le_of_lt h

/-- Consecutive closed intervals from an edge below `x` to an edge above cover `x`, whatever is in between. -/
theorem windows_cover (x : Flt K) (hx : x.isNan = false) (edges : List (Flt K)) (hn : ∀ e ∈ edges, e.isNan = false) (a : Flt K)
    (ha : Flt.le a x = true) (last : Flt K) (hlast : (a :: edges).getLast? = some last) (hl : Flt.le x last = true) (hne : edges ≠ []) :
    ∃ w ∈ windows (a :: edges), Flt.le w.1 x = true ∧ Flt.le x w.2 = true := by
  induction edges generalizing a with
  | nil => exact absurd rfl hne
  | cons b rest ih =>
    by_cases h : Flt.le x b = true
    · exact ⟨(a, b), by simp [windows], ha, h⟩
    · have hb := le_of_not_le hx (hn b (by simp)) h
      by_cases hr : rest = []
      · subst hr
        simp only [List.getLast?_cons_cons, List.getLast?_singleton, Option.some.injEq] at hlast
        subst hlast; exact absurd hl h
      · obtain ⟨w, hw, h1⟩ := ih (fun e he => hn e (List.mem_cons_of_mem _ he)) b hb (by simpa using hlast) hr
        exact ⟨w, by simp [windows, hw], h1⟩

/-- Number of intervals containing `x`. -/
def hits (x : Flt K) (ws : List (Flt K × Flt K)) : Nat := ws.countP fun w => Flt.le w.1 x && Flt.le x w.2

theorem lt_le {a b c : Flt K} (h1 : Flt.lt a b = true) (h2 : Flt.le b c = true) : Flt.lt a c = true := by
  cases a <;> cases b <;> simp only [Flt.lt, Bool.false_eq_true] at h1 <;> cases c <;>
    simp only [Flt.le, Bool.false_eq_true, decide_eq_true_eq] at h2 <;> simp only [Flt.lt, decide_eq_true_eq] at h1 ⊢
  exact lt_of_lt_of_le h1 h2

theorem le_of_lt' {a b : Flt K} (h : Flt.lt a b = true) : Flt.le a b = true := by
  cases a <;> cases b <;> simp_all [Flt.lt, Flt.le, le_of_lt]

theorem not_le_of_lt {a b : Flt K} (h : Flt.lt a b = true) : Flt.le b a = false := by
  cases a <;> cases b <;> simp_all [Flt.lt, Flt.le]

theorem windows_hits_zero (x : Flt K) (edges : List (Flt K)) (h : ∀ e ∈ edges, Flt.lt x e = true) : hits x (windows edges) = 0 := by
  induction edges with
  | nil => rfl
  | cons a rest ih =>
    cases rest with
    | nil => rfl
    | cons b rest =>
      have ha := h a (by simp)
      have : Flt.le a x = false := not_le_of_lt ha
      rw [hits, windows, List.countP_cons_of_neg (by simp [this])]
      exact ih fun e he => h e (List.mem_cons_of_mem _ he)

theorem windows_hits_one (x : Flt K) (edges : List (Flt K)) (a : Flt K) (hs : (a :: edges).Pairwise fun p q => Flt.le p q = true)
    (ha : Flt.lt a x = true) (hne : ∀ e ∈ edges, Flt.lt e x = true ∨ Flt.lt x e = true) (last : Flt K)
    (hlast : (a :: edges).getLast? = some last) (hl : Flt.lt x last = true) : hits x (windows (a :: edges)) = 1 := by
  induction edges generalizing a with
  | nil =>
    simp only [List.getLast?_singleton, Option.some.injEq] at hlast
    subst hlast; rw [Flt.lt_asymm ha] at hl; cases hl
  | cons b rest ih =>
    obtain ⟨h1, h2⟩ := List.pairwise_cons.mp hs
    have hax : Flt.le a x = true := le_of_lt' ha
    rcases hne b (by simp) with hb | hb
    · have hxb : Flt.le x b = false := not_le_of_lt hb
      rw [hits, windows, List.countP_cons_of_neg (by simp [hxb])]
      exact ih b h2 hb (fun e he => hne e (List.mem_cons_of_mem _ he)) (by simpa using hlast)
    · have hxb : Flt.le x b = true := le_of_lt' hb
      rw [hits, windows, List.countP_cons_of_pos (by simp [hax, hxb])]
      have : hits x (windows (b :: rest)) = 0 := by
        apply windows_hits_zero
        intro e he
        rcases List.mem_cons.mp he with rfl | he
        · exact hb
        · have := (List.pairwise_cons.mp h2).1 e he
          exact lt_le hb this
      rw [hits] at this; rw [this]

theorem product_mem {α : Type} (ls : List (List α)) (c : List α) : c ∈ product ls ↔ List.Forall₂ (fun a l => a ∈ l) c ls := by
  induction ls generalizing c with
  | nil => simp [product]
  | cons l ls ih =>
    simp only [product, List.mem_flatMap, List.mem_map]
    constructor
    · rintro ⟨a, ha, t, ht, rfl⟩; exact List.Forall₂.cons ha ((ih t).mp ht)
    · intro h
      cases h with
      | cons ha ht => exact ⟨_, ha, _, (ih _).mpr ht, rfl⟩

theorem countP_flatMap_mul {α : Type} (l : List α) (rest : List (List α)) (P : α → Bool) (Q : List α → Bool) :
    (l.flatMap fun a => rest.map (a :: ·)).countP (fun c => match c with | a :: t => P a && Q t | [] => false) = l.countP P * rest.countP Q := by
  induction l with
  | nil => simp
  | cons a l ih =>
    rw [List.flatMap_cons, List.countP_append, ih, List.countP_map]
    by_cases h : P a = true
    · rw [List.countP_cons_of_pos h, Nat.add_mul, Nat.one_mul, Nat.add_comm]
      congr 1
      apply List.countP_congr
      intro c _; simp [h]
    · rw [List.countP_cons_of_neg h]
      have : rest.countP ((fun c => match c with | a :: t => P a && Q t | [] => false) ∘ fun x => a :: x) = 0 := by
        rw [List.countP_eq_zero]; intro c _; simp [h]
      rw [this, Nat.zero_add]

/-- Decidable form of `InCell`. -/
def inCellB : Cell K → List (Flt K) → Bool
  | [], [] => true
  | b :: cell, x :: feats => (Flt.le b.1 x && Flt.le x b.2) && inCellB cell feats
  | _, _ => false

theorem inCellB_iff (cell : Cell K) (feats : List (Flt K)) : inCellB cell feats = true ↔ InCell cell feats := by
  induction cell generalizing feats with
  | nil => cases feats <;> simp [inCellB, InCell]
  | cons b cell ih => cases feats <;> simp [inCellB, InCell, ih, and_assoc]

theorem product_hits (fs : List (List (Flt K × Flt K))) (feats : List (Flt K)) (hl : feats.length = fs.length)
    (h : ∀ p ∈ fs.zip feats, hits p.2 p.1 = 1) : (product fs).countP (fun c => inCellB c feats) = 1 := by
  induction fs generalizing feats with
  | nil => cases feats with
    | nil => simp [product, inCellB]
    | cons => simp at hl
  | cons l fs ih =>
    cases feats with
    | nil => simp at hl
    | cons x feats =>
      have h1 : hits x l = 1 := h (l, x) (by simp)
      have h2 := ih feats (by simpa using hl) (fun p hp => h p (by simp [hp]))
      have := countP_flatMap_mul l (product fs) (fun w => Flt.le w.1 x && Flt.le x w.2) (fun c => inCellB c feats)
      rw [show l.countP (fun w => Flt.le w.1 x && Flt.le x w.2) = 1 from h1, h2] at this
      rw [product]
      refine Eq.trans (List.countP_congr ?_) this
      intro c _
      cases c <;> simp [inCellB]

theorem windows_length {α : Type} (l : List α) : (windows l).length = l.length - 1 := by
  fun_induction windows l with
  | case1 a b l ih => simp [ih]
  | case2 l h =>
    cases l with
    | nil => rfl
    | cons a l => cases l with
      | nil => rfl
      | cons b l => exact absurd rfl (h a b l)

variable [Field K] [IsStrictOrderedRing K]

omit [LinearOrder K] [IsStrictOrderedRing K] in
theorem mapM_bins (features : List (K × K × Nat)) (hb : ∀ f ∈ features, 1 ≤ f.2.2) :
    features.mapM (fun f => bins f.1 f.2.1 f.2.2) =
      .ok (features.map fun f => windows ([.ninf] ++ (linspace f.1 f.2.1 (f.2.2 - 1)).map .fin ++ [.pinf])) := by
  induction features with
  | nil => rfl
  | cons f fs ih =>
    have h1 := hb f (by simp)
    rw [List.mapM_cons, ih fun x hx => hb x (List.mem_cons_of_mem _ hx), bins, if_neg (by omega)]
    rfl

omit [LinearOrder K] [IsStrictOrderedRing K] in
theorem grid_eq (features : List (K × K × Nat)) (hb : ∀ f ∈ features, 1 ≤ f.2.2) :
    makeFeatureGrid features =
      .ok (product (features.map fun f => windows ([.ninf] ++ (linspace f.1 f.2.1 (f.2.2 - 1)).map .fin ++ [.pinf]))) := by
  rw [makeFeatureGrid, mapM_bins features hb]; rfl

theorem linspace_sorted (lb ub : K) (h : lb ≤ ub) (steps : Nat) : (linspace lb ub steps).Pairwise (· ≤ ·) := by
  rw [linspace, List.pairwise_map]
  refine (List.pairwise_lt_range).imp fun {i j} hij => ?_
  have hd : 0 ≤ (ub - lb) / ((steps - 1 : Nat) : K) := div_nonneg (by linarith) (Nat.cast_nonneg _)
  have hc : (i : K) ≤ (j : K) := by exact_mod_cast hij.le
  linarith [mul_le_mul_of_nonneg_right hc hd]

/-- **C34 (bins).** Per feature there are `num_bins` bins; the edges are minus infinity, `num_bins - 1` equally spaced values from the lower to
the upper bound, and plus infinity; each bin goes from one edge to the next. `num_bins = 0` is refused. -/
theorem C34_bins (lb ub : K) (numBins : Nat) :
    (numBins = 0 → ∃ e, bins lb ub numBins = .error e) ∧
    (1 ≤ numBins → ∃ (bs : List (Flt K × Flt K)) (edges : List (Flt K)), bins lb ub numBins = .ok bs ∧ bs.length = numBins ∧ edges.length = numBins + 1 ∧
      edges[0]? = some .ninf ∧ edges[numBins]? = some .pinf ∧
      (∀ k : Nat, 1 ≤ k → k < numBins → edges[k]? = some (.fin (lb + ((k - 1 : Nat) : K) * ((ub - lb) / ((numBins - 2 : Nat) : K))))) ∧
      ∀ (k : Nat) (b : Flt K × Flt K), bs[k]? = some b → edges[k]? = some b.1 ∧ edges[k + 1]? = some b.2) := by
  refine ⟨fun h => ⟨_, by rw [bins, if_pos h]⟩, fun h => ?_⟩
  refine ⟨_, [.ninf] ++ (linspace lb ub (numBins - 1)).map .fin ++ [.pinf], by rw [bins, if_neg (by omega)], ?_, ?_, rfl, ?_, ?_, ?_⟩
  · rw [windows_length]; simp [linspace]; omega
  · simp [linspace]; omega
  · rw [List.getElem?_append_right (by simp [linspace]; omega)]
    simp [linspace, show numBins - 1 + 1 = numBins by omega]
  · intro k hk1 hk2
    rw [List.getElem?_append_left (by simp [linspace]; omega), List.getElem?_append_right (by simpa using hk1)]
    simp only [List.length_singleton, List.getElem?_map, linspace]
    rw [List.getElem?_range (by omega)]
    simp only [Option.map_some, show numBins - 1 - 1 = numBins - 2 by omega]
  · generalize [Flt.ninf] ++ (linspace lb ub (numBins - 1)).map .fin ++ [.pinf] = edges
    intro k b hk
    fun_induction windows edges generalizing k with
    | case1 a c l ih =>
      cases k with
      | zero => simp at hk; subst hk; simp
      | succ k => simpa using ih k (by simpa using hk)
    | case2 l hno => simp at hk

/-- **C34 (number of cells).** The grid has as many cells as the product of the numbers of bins, each with one interval per feature. -/
theorem C34_grid_size (features : List (K × K × Nat)) (hb : ∀ f ∈ features, 1 ≤ f.2.2) :
    ∃ grid, makeFeatureGrid features = .ok grid ∧ grid.length = (features.map (·.2.2)).prod ∧ ∀ c ∈ grid, c.length = features.length := by
  refine ⟨_, grid_eq features hb, ?_, ?_⟩
  · have : ∀ ls : List (List (Flt K × Flt K)), (product ls).length = (ls.map List.length).prod := by
      intro ls
      induction ls with
      | nil => rfl
      | cons l ls ih => simp [product, List.length_flatMap, ih, List.map_const']
    rw [this, List.map_map]
    congr 1
    apply List.map_congr_left
    intro f hf
    have := hb f hf
    simp only [Function.comp, windows_length]
    simp [linspace]; omega
  · intro c hc
    have := ((product_mem _ _).mp hc).length_eq
    simpa using this

/-- **C34 (cover).** Every feature vector without NaN (infinities included) lies in some cell, for any bounds. -/
theorem C34_grid_covers (features : List (K × K × Nat)) (hb : ∀ f ∈ features, 1 ≤ f.2.2) (x : List (Flt K)) (hl : x.length = features.length)
    (hx : ∀ v ∈ x, v.isNan = false) : ∃ grid, makeFeatureGrid features = .ok grid ∧ ∃ c ∈ grid, InCell c x := by
  refine ⟨_, grid_eq features hb, ?_⟩
  clear hb
  induction features generalizing x with
  | nil => cases x with
    | nil => exact ⟨[], by simp [product], List.Forall₂.nil⟩
    | cons => simp at hl
  | cons f fs ih =>
    cases x with
    | nil => simp at hl
    | cons v x =>
      obtain ⟨c, hc, hin⟩ := ih x (by simpa using hl) (fun w hw => hx w (List.mem_cons_of_mem _ hw))
      have hv := hx v (by simp)
      obtain ⟨w, hw, h1, h2⟩ := windows_cover v hv ((linspace f.1 f.2.1 (f.2.2 - 1)).map .fin ++ [.pinf])
        (by intro e he
            rcases List.mem_append.mp he with he | he
            · obtain ⟨y, _, rfl⟩ := List.mem_map.mp he; rfl
            · simp at he; subst he; rfl)
        .ninf (by cases v <;> simp_all [Flt.le, Flt.isNan]) .pinf
        (by rw [← List.cons_append, List.getLast?_append]; rfl) (by cases v <;> simp_all [Flt.le, Flt.isNan]) (by simp)
      refine ⟨w :: c, ?_, List.Forall₂.cons ⟨h1, h2⟩ hin⟩
      rw [List.map_cons, product]
      exact List.mem_flatMap.mpr ⟨w, by simpa using hw, List.mem_map.mpr ⟨c, hc, rfl⟩⟩

/-- **C34 (partition).** With ordered bounds, a finite feature vector that is on no inner bin edge lies in exactly one cell. -/
theorem C34_exactly_one_cell (features : List (K × K × Nat)) (hb : ∀ f ∈ features, 1 ≤ f.2.2 ∧ f.1 ≤ f.2.1) (x : List K)
    (hl : x.length = features.length)
    (hedge : ∀ p ∈ features.zip x, p.2 ∉ linspace p.1.1 p.1.2.1 (p.1.2.2 - 1)) :
    ∃ grid, makeFeatureGrid features = .ok grid ∧ grid.countP (fun c => inCellB c (x.map .fin)) = 1 := by
  refine ⟨_, grid_eq features fun f hf => (hb f hf).1, ?_⟩
  apply product_hits
  · simpa using hl
  · intro p hp
    obtain ⟨i, hi⟩ := List.getElem?_of_mem hp
    rw [List.getElem?_zip_eq_some, List.getElem?_map, List.getElem?_map] at hi
    obtain ⟨hi1, hi2⟩ := hi
    obtain ⟨f, hf, hf'⟩ := Option.map_eq_some_iff.mp hi1
    obtain ⟨v, hv, hv'⟩ := Option.map_eq_some_iff.mp hi2
    rw [← hf', ← hv']
    have hno := hedge (f, v) (List.mem_of_getElem? (i := i) (by rw [List.getElem?_zip_eq_some]; exact ⟨hf, hv⟩))
    have hub := (hb f (List.mem_of_getElem? hf)).2
    rw [List.append_assoc, List.singleton_append]
    apply windows_hits_one _ _ _ _ _ _ .pinf
    · rw [← List.cons_append, List.getLast?_append]; rfl
    · rfl
    · rw [List.pairwise_cons]
      refine ⟨fun e he => ?_, ?_⟩
      · rcases List.mem_append.mp he with he | he
        · obtain ⟨y, _, rfl⟩ := List.mem_map.mp he; rfl
        · simp at he; subst he; rfl
      · rw [List.pairwise_append]
        refine ⟨?_, by simp, ?_⟩
        · rw [List.pairwise_map]
          exact (linspace_sorted _ _ hub _).imp fun {a b} h => by simpa [Flt.le] using h
        · intro a ha b hb'
          obtain ⟨y, _, rfl⟩ := List.mem_map.mp ha
          simp at hb'; subst hb'; rfl
    · rfl
    · intro e he
      rcases List.mem_append.mp he with he | he
      · obtain ⟨y, hy, rfl⟩ := List.mem_map.mp he
        have : y ≠ v := fun h => hno (h ▸ hy)
        simpa [Flt.lt] using lt_or_gt_of_ne this
      · simp at he; subst he; right; rfl

example : (makeFeatureGrid [((0 : ℚ), 2, 4), (5, 6, 1)]).toOption = some
    [[(.ninf, .fin 0), (.ninf, .pinf)], [(.fin 0, .fin 1), (.ninf, .pinf)], [(.fin 1, .fin 2), (.ninf, .pinf)], [(.fin 2, .pinf), (.ninf, .pinf)]] := by
  decide +kernel
/-- On an edge a vector is in two cells. -/
example : (makeFeatureGrid [((0 : ℚ), 2, 4)]).toOption.map (fun g => (g.countP (fun c => inCellB c [.fin 1]), g.countP (fun c => inCellB c [.fin (1 / 2)])))
    = some (2, 1) := by decide +kernel

end C34
end EvoTorch.MapElites
