import Verif.Model.BoundedRuns
import Verif.Props.Operators
/-!
C168: searches stay within the bounds of the problem, over whole runs.
-/
namespace EvoTorch.BoundedRuns
open EvoTorch
open EvoTorch.GA (Row)
open EvoTorch.Operators (Within)
variable {l : Nat} {K : Type}

/-! ### Specification -/

/-- A solution is within the bounds of the problem. -/
def InBox (B : Bounds l) (v : Vec l) : Prop := ∀ j, (∀ a, B.lower = some a → a j ≤ v j) ∧ (∀ b, B.upper = some b → v j ≤ b j)

/-- The bounds are in order. -/
def Ordered (B : Bounds l) : Prop := ∀ a b, B.lower = some a → B.upper = some b → ∀ j, a j ≤ b j

/-- The sorting functions sort. -/
structure LibSpec (L : Lib) : Prop where
  sort : ∀ xs, Selection.IsArgsort (· ≤ ·) xs (L.sort xs)
  sortNat : ∀ xs, (L.sortNat xs).Perm xs ∧ (L.sortNat xs).Pairwise (· ≤ ·)

/-- What PyTorch can draw, and what the operators accept: polynomial mutation needs both bounds, here with room between them (see `C26_violated_polynomial`). -/
def Call.Legal (B : Bounds l) : Call l → Prop
  | .gaussian .. => True
  | .polynomial eta _ r => 0 < eta + 1 ∧ (∀ i j, 0 ≤ r i j ∧ r i j ≤ 1) ∧ ∃ a b, B.lower = some a ∧ B.upper = some b ∧ ∀ j, a j < b j
  | .multiPoint .. => True
  | .sbx .. => True
  | .permutation _ rnd => ∀ i j, rnd i j < 1

/-- Operators that only move genes. -/
def Call.Moves : Call l → Prop
  | .multiPoint .. => True
  | .permutation _ rnd => ∀ i j, rnd i j < 1
  | _ => False

/-- A run of `GeneticAlgorithm` or `SteadyStateGA`. -/
noncomputable def gaRun (cfg : GA.Cfg K) (L : Lib) (B : Bounds l) (steps : List (Draws l K)) (vals : List (Vec l)) : GA.State (Vec l) K :=
  GA.run cfg (steps.map fun d => d.env L B) (GA.init vals)

/-- A run of `Cosyne`. -/
noncomputable def cosyneRun (cfg : GA.CosyneCfg K) (L : Lib) (B : Bounds l) (steps : List (CosyneDraws l K)) (vals : List (Vec l)) : GA.State (Vec l) K :=
  steps.foldl (cosyneStep cfg L B) (GA.init vals)

/-- A run of `MAPElites`. -/
noncomputable def mapElitesRun [LinearOrder K] (cfg : MapElites.Cfg K) (L : Lib) (B : Bounds l) (steps : List (Draws l (MapElites.Ev K))) (vals : List (Vec l)) :
    MapElites.State (Vec l) K :=
  (steps.map fun d => d.env L B).foldl (MapElites.step cfg) (MapElites.init vals)

/-! ### Genes -/

/-- Every gene of every row satisfies the predicate of its column. -/
def All (P : Fin l → ℝ → Prop) (vs : List (Vec l)) : Prop := ∀ v ∈ vs, ∀ j, P j (v j)

theorem mem_of_get? {vs : List (Vec l)} {i : Nat} {v : Vec l} (h : vs[i]? = some v) : v ∈ vs := List.mem_of_getElem? h

theorem multiPoint_all (P : Fin l → ℝ → Prop) (n : Nat) (ps : List (Vec l × Vec l × List Nat)) (h : ∀ q ∈ ps, (∀ j, P j (q.1 j)) ∧ ∀ j, P j (q.2.1 j)) :
    All P (Operators.multiPoint n ps) := by
  intro v hv j
  rcases List.mem_append.1 hv with hv | hv <;> obtain ⟨q, hq, rfl⟩ := List.mem_map.1 hv <;> dsimp only <;> split
  · exact (h q hq).1 j
  · exact (h q hq).2 j
  · exact (h q hq).2 j
  · exact (h q hq).1 j

theorem permute_all (P : Fin l → ℝ → Prop) {L : Lib} (hL : LibSpec L) (mask : Nat → Fin l → Bool) (rnd : Nat → Vec l) (hr : ∀ i j, rnd i j < 1) (vs : List (Vec l)) (h : All P vs) :
    All P (permute L mask rnd vs) := by
  intro v hv j
  obtain ⟨i, hi, rfl⟩ := List.mem_map.1 hv
  have hp := (Operators.C31_cosyne_column hL.sort hL.sortNat ((List.range vs.length).map (mask · j)) ((List.range vs.length).map (rnd · j)) (vs.map (· j)) (by simp) (by simp)
    (by intro x hx; obtain ⟨k, -, rfl⟩ := List.mem_map.1 hx; exact hr k j)).1
  have hi' : i < (Operators.cosyneColumn L.sort L.sortNat ((List.range vs.length).map (mask · j)) ((List.range vs.length).map (rnd · j)) (vs.map (· j))).length := by
    rw [hp.length_eq]; simpa using hi
  dsimp only
  rw [List.getD_eq_getElem?_getD, List.getElem?_eq_getElem hi', Option.getD_some]
  have := hp.mem_iff.1 (List.getElem_mem hi')
  obtain ⟨w, hw, e⟩ := List.mem_map.1 this
  rw [← e]; exact h w hw j

theorem pairs_all (P : Fin l → ℝ → Prop) (vs : List (Vec l)) (h : All P vs) (pairs : List (Nat × Nat × List Nat)) :
    ∀ q ∈ (pairs.filterMap fun q => do
      let p1 ← vs[q.1]?
      let p2 ← vs[q.2.1]?
      some (p1, p2, q.2.2)), (∀ j, P j (q.1 j)) ∧ ∀ j, P j (q.2.1 j) := by
  intro q hq
  obtain ⟨x, -, hx⟩ := List.mem_filterMap.1 hq
  cases h1 : vs[x.1]? with
  | none => simp [h1] at hx
  | some p1 =>
    cases h2 : vs[x.2.1]? with
    | none => simp [h1, h2] at hx
    | some p2 =>
      simp only [h1, h2, Option.bind_eq_bind, Option.bind_some, Option.some.injEq] at hx
      rw [← hx]
      exact ⟨h p1 (mem_of_get? h1), h p2 (mem_of_get? h2)⟩

theorem gene_within {B : Bounds l} (x : ℝ) (j : Fin l) : Within (gene B.lower j) (gene B.upper j) x ↔ (∀ a, B.lower = some a → a j ≤ x) ∧ (∀ b, B.upper = some b → x ≤ b j) := by
  unfold Within gene
  constructor
  · rintro ⟨h1, h2⟩
    exact ⟨fun a ha => h1 _ (by rw [ha]; rfl), fun b hb => h2 _ (by rw [hb]; rfl)⟩
  · rintro ⟨h1, h2⟩
    refine ⟨fun a ha => ?_, fun b hb => ?_⟩
    · obtain ⟨w, hw, rfl⟩ := Option.map_eq_some_iff.1 ha; exact h1 w hw
    · obtain ⟨w, hw, rfl⟩ := Option.map_eq_some_iff.1 hb; exact h2 w hw

theorem gene_ordered {B : Bounds l} (h : Ordered B) (j : Fin l) (a b : ℝ) (ha : gene B.lower j = some a) (hb : gene B.upper j = some b) : a ≤ b := by
  obtain ⟨v, hv, rfl⟩ := Option.map_eq_some_iff.1 ha
  obtain ⟨w, hw, rfl⟩ := Option.map_eq_some_iff.1 hb
  exact h v w hv hw j

/-- The predicate of a column that says that a gene is within its bounds. -/
def boxAt (B : Bounds l) (j : Fin l) (x : ℝ) : Prop := (∀ a, B.lower = some a → a j ≤ x) ∧ (∀ b, B.upper = some b → x ≤ b j)

theorem apply_box {L : Lib} (hL : LibSpec L) {B : Bounds l} (hB : Ordered B) (c : Call l) (hc : c.Legal B) (vs : List (Vec l)) (h : All (boxAt B) vs) : All (boxAt B) (c.apply L B vs) := by
  cases c with
  | gaussian prob stdev u g =>
    intro v hv j
    obtain ⟨i, rfl⟩ := (List.mem_ofFn' ..).1 hv
    exact (gene_within _ j).1 (Operators.C26_gaussian_mutation _ _ (fun j a b ha hb => gene_ordered hB j a b ha hb) prob stdev _ _ _ i j).1
  | polynomial eta mutate r =>
    obtain ⟨he, hr, a, b, ha, hb, hlt⟩ := hc
    intro v hv j
    simp only [Call.apply, ha, hb] at hv
    obtain ⟨i, rfl⟩ := (List.mem_ofFn' ..).1 hv
    obtain ⟨y, hy, h1, h2⟩ := Operators.C26_polynomial_mutation_partial he a b hlt (fun i : Fin vs.length => mutate i) (fun i => r i) (fun i => vs[i])
      (fun i j => hr i j) (fun i j => ⟨(h vs[i] (List.getElem_mem _) j).1 a ha, (h vs[i] (List.getElem_mem _) j).2 b hb⟩) i j
    dsimp only
    rw [hy]
    exact ⟨fun a' ha' => by rw [ha] at ha'; injection ha' with e; rw [← e]; exact h1, fun b' hb' => by rw [hb] at hb'; injection hb' with e; rw [← e]; exact h2⟩
  | multiPoint n pairs => exact multiPoint_all _ _ _ (pairs_all _ vs h pairs)
  | sbx eta pairs u =>
    intro v hv j
    exact (gene_within _ j).1 (Operators.C26_sbx _ _ (fun j a b ha hb => gene_ordered hB j a b ha hb) eta _ _ _ v hv j)
  | permutation mask rnd => exact permute_all _ hL mask rnd hc vs h

theorem apply_moves (P : Fin l → ℝ → Prop) {L : Lib} (hL : LibSpec L) (B : Bounds l) (c : Call l) (hc : c.Moves) (vs : List (Vec l)) (h : All P vs) : All P (c.apply L B vs) := by
  cases c with
  | gaussian => exact hc.elim
  | polynomial => exact hc.elim
  | multiPoint n pairs => exact multiPoint_all _ _ _ (pairs_all _ vs h pairs)
  | sbx => exact hc.elim
  | permutation mask rnd => exact permute_all _ hL mask rnd hc vs h

/-! ### Runs -/

/-- Every gene in a batch satisfies the predicate of its column. -/
def AllRows (P : Fin l → ℝ → Prop) (rows : List (Row (Vec l) K)) : Prop := ∀ r ∈ rows, ∀ j, P j (r.val j)

theorem breed_all {P : Fin l → ℝ → Prop} {L : Lib} {B : Bounds l} (calls : List (Call l)) (hc : ∀ c ∈ calls, ∀ vs, All P vs → All P (c.apply L B vs)) (rows : List (Row (Vec l) K))
    (h : AllRows P rows) : AllRows P (breed L B calls rows) := by
  have : ∀ (calls : List (Call l)), (∀ c ∈ calls, ∀ vs, All P vs → All P (c.apply L B vs)) → ∀ vs, All P vs → All P (calls.foldl (fun vs c => c.apply L B vs) vs) := by
    intro calls
    induction calls with
    | nil => exact fun _ vs h => h
    | cons c cs ih => exact fun hc vs h => ih (fun c hm => hc c (List.mem_cons_of_mem _ hm)) _ (hc c (List.mem_cons_self ..) vs h)
  intro r hr
  obtain ⟨v, hv, rfl⟩ := List.mem_map.1 hr
  exact this calls hc _ (fun v hv => by obtain ⟨r, hr, rfl⟩ := List.mem_map.1 hv; exact h r hr) v hv

theorem evaluate_all {P : Fin l → ℝ → Prop} (f : Vec l → K) {rows : List (Row (Vec l) K)} (h : AllRows P rows) : AllRows P (GA.evaluate f rows) := by
  intro r hr
  obtain ⟨q, hq, rfl⟩ := List.mem_map.1 hr
  exact h q hq

theorem takeBest_all {P : Fin l → ℝ → Prop} (sort : Selection.Sorter (Option K)) (s : BestWorst.Sense) (n : Nat) {rows : List (Row (Vec l) K)} (h : AllRows P rows) :
    AllRows P (GA.takeBest sort s n rows) := by
  intro r hr
  obtain ⟨i, -, hi⟩ := List.mem_filterMap.1 hr
  exact h r (List.mem_of_getElem? hi)

theorem append_all {P : Fin l → ℝ → Prop} {a b : List (Row (Vec l) K)} (ha : AllRows P a) (hb : AllRows P b) : AllRows P (a ++ b) := by
  intro r hr
  rcases List.mem_append.1 hr with hr | hr
  · exact ha r hr
  · exact hb r hr

theorem extended_all {P : Fin l → ℝ → Prop} (cfg : GA.Cfg K) (e : GA.Env (Vec l) K) (he : ∀ rows, AllRows P rows → AllRows P (e.ops rows)) (st : GA.State (Vec l) K)
    (h : AllRows P st.population) :
    AllRows P (GA.makeExtended cfg e st).1.population ∧ AllRows P (GA.makeExtended cfg e st).2.1 ∧ AllRows P (GA.makeExtended cfg e st).2.2 := by
  have hpop : AllRows P (if st.firstIter then GA.evaluate e.f1 st.population else st.population) := by
    split
    · exact evaluate_all _ h
    · exact h
  unfold GA.makeExtended
  split
  · split
    · exact ⟨evaluate_all _ h, evaluate_all _ h, evaluate_all _ (he _ (evaluate_all _ h))⟩
    · have hx := evaluate_all (K := K) e.f1 (append_all h (he _ h))
      exact ⟨h, fun r hr => hx r (List.mem_of_mem_take hr), fun r hr => hx r (List.mem_of_mem_drop hr)⟩
  · exact ⟨hpop, hpop, evaluate_all _ (he _ hpop)⟩

theorem gaStep_all {P : Fin l → ℝ → Prop} (cfg : GA.Cfg K) (e : GA.Env (Vec l) K) (he : ∀ rows, AllRows P rows → AllRows P (e.ops rows)) (st : GA.State (Vec l) K)
    (h : AllRows P st.population) : AllRows P (GA.step cfg e st).population := by
  obtain ⟨h1, h2, h3⟩ := extended_all cfg e he st h
  unfold GA.step
  dsimp only
  split
  · exact takeBest_all _ _ _ (append_all h2 h3)
  · split
    · exact append_all (takeBest_all _ _ _ h1) h3
    · split
      · exact h3
      · exact takeBest_all _ _ _ h3

theorem gaRun_all {P : Fin l → ℝ → Prop} (cfg : GA.Cfg K) (es : List (GA.Env (Vec l) K)) (he : ∀ e ∈ es, ∀ rows, AllRows P rows → AllRows P (e.ops rows)) (st : GA.State (Vec l) K)
    (h : AllRows P st.population) : AllRows P (GA.run cfg es st).population := by
  induction es generalizing st with
  | nil => exact h
  | cons e es ih => exact ih (fun e hm => he e (List.mem_cons_of_mem _ hm)) _ (gaStep_all cfg e (he e (List.mem_cons_self ..)) st h)

theorem init_all {P : Fin l → ℝ → Prop} {vals : List (Vec l)} (h : All P vals) : AllRows P (GA.init vals : GA.State (Vec l) K).population := by
  intro r hr
  obtain ⟨v, hv, rfl⟩ := List.mem_map.1 hr
  exact h v hv

theorem cosyneStep_all {P : Fin l → ℝ → Prop} (cfg : GA.CosyneCfg K) (L : Lib) (B : Bounds l) (d : CosyneDraws l K)
    (hc : ∀ c ∈ Call.permutation d.mask d.rnd :: d.calls, ∀ vs, All P vs → All P (c.apply L B vs)) (st : GA.State (Vec l) K) (h : AllRows P st.population) :
    AllRows P (cosyneStep cfg L B st d).population := by
  have hpop : AllRows P (if st.firstIter then GA.evaluate d.f0 st.population else st.population) := by
    split
    · exact evaluate_all _ h
    · exact h
  have hrel : ∀ n, AllRows P (GA.takeBest cfg.sort cfg.sense n (if st.firstIter then GA.evaluate d.f0 st.population else st.population)) := fun n => takeBest_all _ _ _ hpop
  have hperm := breed_all [Call.permutation d.mask d.rnd] (fun c hm => hc c (by simp at hm; simp [hm])) _ hpop
  have hbr : ∀ n m, AllRows P (breed L B d.calls ((GA.takeBest cfg.sort cfg.sense n (if st.firstIter then GA.evaluate d.f0 st.population else st.population)).take m)) := fun n m =>
    breed_all d.calls (fun c hm => hc c (List.mem_cons_of_mem _ hm)) _ (fun r hr => hrel n r (List.mem_of_mem_take hr))
  unfold cosyneStep GA.cosyneStep
  dsimp only
  refine takeBest_all _ _ _ (evaluate_all _ (append_all ?_ (append_all (hbr _ _) hperm)))
  cases cfg.numElites with
  | none => intro r hr; simp at hr
  | some e =>
    dsimp only
    split
    · exact fun r hr => hrel _ r (List.mem_of_mem_take hr)
    · intro r hr; simp at hr

theorem mapStep_all [LinearOrder K] {P : Fin l → ℝ → Prop} (cfg : MapElites.Cfg K) (e : GA.Env (Vec l) (MapElites.Ev K)) (he : ∀ rows, AllRows P rows → AllRows P (e.ops rows))
    (st : MapElites.State (Vec l) K) (h : AllRows P st.population) : AllRows P (MapElites.extended cfg e st) ∧ AllRows P (MapElites.step cfg st e).population := by
  obtain ⟨h1, h2, h3⟩ := extended_all cfg.ga e he ⟨st.population, st.firstIter⟩ h
  have hx : AllRows P (MapElites.extended cfg e st) := append_all h2 h3
  refine ⟨hx, fun r hr => ?_⟩
  obtain ⟨cell, -, hi⟩ := List.mem_filterMap.1 hr
  exact hx r (List.mem_of_getElem? hi)

/-! ### Theorems -/

theorem inBox_iff {B : Bounds l} {v : Vec l} : InBox B v ↔ ∀ j, boxAt B j (v j) := Iff.rfl

/-- **C168**, `GeneticAlgorithm` and `SteadyStateGA`: if the first population is within the bounds, then after every number of steps the population, and all solutions that the next
step evaluates, are within the bounds, whatever the fitness functions, the settings and the draws. -/
theorem C168_genetic_algorithm {L : Lib} (hL : LibSpec L) {B : Bounds l} (hB : Ordered B) (cfg : GA.Cfg K) (steps : List (Draws l K)) (next : Draws l K)
    (hc : ∀ d ∈ next :: steps, ∀ c ∈ d.calls, c.Legal B) (vals : List (Vec l)) (hv : ∀ v ∈ vals, InBox B v) :
    (∀ r ∈ (gaRun cfg L B steps vals).population, InBox B r.val) ∧ ∀ v ∈ seen cfg (next.env L B) (gaRun cfg L B steps vals), InBox B v := by
  have he : ∀ d ∈ next :: steps, ∀ rows : List (Row (Vec l) K), AllRows (boxAt B) rows → AllRows (boxAt B) ((d.env L B).ops rows) := fun d hd rows h =>
    breed_all d.calls (fun c hm vs hvs => apply_box hL hB c (hc d hd c hm) vs hvs) rows h
  have hpop : AllRows (boxAt B) (gaRun cfg L B steps vals).population :=
    gaRun_all cfg _ (fun e hm => by obtain ⟨d, hd, rfl⟩ := List.mem_map.1 hm; exact he d (List.mem_cons_of_mem _ hd)) _ (init_all hv)
  refine ⟨hpop, fun v hm => ?_⟩
  obtain ⟨-, h2, h3⟩ := extended_all cfg (next.env L B) (he next (List.mem_cons_self ..)) _ hpop
  obtain ⟨r, hr, rfl⟩ := List.mem_map.1 hm
  exact append_all h2 h3 r hr

/-- **C168**, `Cosyne`. -/
theorem C168_cosyne {L : Lib} (hL : LibSpec L) {B : Bounds l} (hB : Ordered B) (cfg : GA.CosyneCfg K) (steps : List (CosyneDraws l K))
    (hc : ∀ d ∈ steps, (∀ c ∈ d.calls, c.Legal B) ∧ ∀ i j, d.rnd i j < 1) (vals : List (Vec l)) (hv : ∀ v ∈ vals, InBox B v) :
    ∀ r ∈ (cosyneRun cfg L B steps vals).population, InBox B r.val := by
  have : ∀ (steps : List (CosyneDraws l K)), (∀ d ∈ steps, (∀ c ∈ d.calls, c.Legal B) ∧ ∀ i j, d.rnd i j < 1) → ∀ st : GA.State (Vec l) K, AllRows (boxAt B) st.population →
      AllRows (boxAt B) (steps.foldl (cosyneStep cfg L B) st).population := by
    intro steps
    induction steps with
    | nil => exact fun _ st h => h
    | cons d ds ih =>
      intro hc st h
      refine ih (fun d hm => hc d (List.mem_cons_of_mem _ hm)) _ (cosyneStep_all cfg L B d (fun c hm vs hvs => apply_box hL hB c ?_ vs hvs) st h)
      rcases List.mem_cons.1 hm with rfl | hm
      · exact (hc d (List.mem_cons_self ..)).2
      · exact (hc d (List.mem_cons_self ..)).1 c hm
  exact this steps hc _ (init_all hv)

/-- **C168**, `MAPElites`. -/
theorem C168_map_elites [LinearOrder K] {L : Lib} (hL : LibSpec L) {B : Bounds l} (hB : Ordered B) (cfg : MapElites.Cfg K) (steps : List (Draws l (MapElites.Ev K)))
    (next : Draws l (MapElites.Ev K)) (hc : ∀ d ∈ next :: steps, ∀ c ∈ d.calls, c.Legal B) (vals : List (Vec l)) (hv : ∀ v ∈ vals, InBox B v) :
    (∀ r ∈ (mapElitesRun cfg L B steps vals).population, InBox B r.val) ∧ ∀ r ∈ MapElites.extended cfg (next.env L B) (mapElitesRun cfg L B steps vals), InBox B r.val := by
  have he : ∀ d ∈ next :: steps, ∀ rows : List (Row (Vec l) (MapElites.Ev K)), AllRows (boxAt B) rows → AllRows (boxAt B) ((d.env L B).ops rows) := fun d hd rows h =>
    breed_all d.calls (fun c hm vs hvs => apply_box hL hB c (hc d hd c hm) vs hvs) rows h
  have : ∀ (es : List (GA.Env (Vec l) (MapElites.Ev K))), (∀ e ∈ es, ∀ rows, AllRows (boxAt B) rows → AllRows (boxAt B) (e.ops rows)) → ∀ st : MapElites.State (Vec l) K,
      AllRows (boxAt B) st.population → AllRows (boxAt B) (es.foldl (MapElites.step cfg) st).population := by
    intro es
    induction es with
    | nil => exact fun _ st h => h
    | cons e es ih => exact fun he st h => ih (fun e hm => he e (List.mem_cons_of_mem _ hm)) _ (mapStep_all cfg e (he e (List.mem_cons_self ..)) st h).2
  have hpop := this (steps.map fun d => d.env L B) (fun e hm => by obtain ⟨d, hd, rfl⟩ := List.mem_map.1 hm; exact he d (List.mem_cons_of_mem _ hd)) (MapElites.init vals)
    (by intro r hr; obtain ⟨v, hm, rfl⟩ := List.mem_map.1 hr; exact hv v hm)
  exact ⟨hpop, (mapStep_all cfg _ (he next (List.mem_cons_self ..)) _ hpop).1⟩

/-- **C168**, no new genes: without mutation and with multi-point cross-over or permutation only, every gene of every solution of a genetic algorithm, after any number of steps, stood in the same
column of the first population. -/
theorem C168_no_new_genes {L : Lib} (hL : LibSpec L) (B : Bounds l) (cfg : GA.Cfg K) (steps : List (Draws l K)) (hc : ∀ d ∈ steps, ∀ c ∈ d.calls, c.Moves) (vals : List (Vec l)) :
    ∀ r ∈ (gaRun cfg L B steps vals).population, ∀ j, ∃ v ∈ vals, r.val j = v j :=
  gaRun_all (P := fun j x => ∃ v ∈ vals, x = v j) cfg _
    (fun e hm => by
      obtain ⟨d, hd, rfl⟩ := List.mem_map.1 hm
      exact fun rows h => breed_all d.calls (fun c hm vs hvs => apply_moves _ hL B c (hc d hd c hm) vs hvs) rows h) _
    (init_all fun v hv j => ⟨v, hv, rfl⟩)

/-! ### Non-vacuity -/

/-- Sorting functions as assumed exist. -/
noncomputable def exLib : Lib := ⟨Selection.exampleSorter false, fun xs => xs.insertionSort (· ≤ ·)⟩

example : LibSpec exLib := ⟨fun xs => (Selection.exampleSorter_spec (K := ℝ) xs).1, fun _ => ⟨List.perm_insertionSort _ _, List.pairwise_insertionSort _ _⟩⟩

/-- A problem with two variables between -1 and 1, and -3 and 3. -/
noncomputable def exBounds : Bounds 2 := ⟨some ![-1, -3], some ![1, 3]⟩

/-- A two-point cross-over of the first two solutions, SBX, and two mutations. -/
noncomputable def exCalls : List (Call 2) :=
  [.multiPoint 2 [(0, 1, [0, 1])], .sbx 20 [(0, 1)] (fun _ _ => 1 / 3), .gaussian (1 / 2) 5 (fun i _ => i) (fun _ _ => -2), .polynomial 20 (fun _ _ => true) (fun _ _ => 1 / 4)]

example : Ordered exBounds ∧ (∀ c ∈ exCalls, c.Legal exBounds) ∧ InBox exBounds ![1, 2] := by
  refine ⟨?_, ?_, ?_⟩
  · rintro a b ⟨⟩ ⟨⟩ j; fin_cases j <;> norm_num
  · intro c hc
    simp only [exCalls, List.mem_cons, List.not_mem_nil, or_false] at hc
    rcases hc with rfl | rfl | rfl | rfl
    · trivial
    · trivial
    · trivial
    · exact ⟨by norm_num, fun _ _ => by norm_num, _, _, rfl, rfl, fun j => by fin_cases j <;> norm_num⟩
  · intro j
    refine ⟨?_, ?_⟩
    · rintro a ⟨⟩; fin_cases j <;> norm_num
    · rintro a ⟨⟩; fin_cases j <;> norm_num

/-- A call that only moves genes. -/
example : (Call.multiPoint 2 [(0, 1, [0, 1])] : Call 2).Moves := trivial

end EvoTorch.BoundedRuns
