import Verif.Model.GA
import Verif.Props.Selection
import Mathlib.Algebra.Order.Ring.Rat
/-!
C22 (population size, elitism), C23 (non-elitist parents), C24 (operator registration), C25 (Cosyne).
-/
namespace EvoTorch.GA
open BestWorst (Sense)
open Selection (Sorter IsArgsort NotWorse)
variable {V K : Type}

/-- `torch.argsort` on evaluations with NaN (`none`), which torch treats as the greatest value. -/
def torchLe [LE K] : Option K → Option K → Prop
  | _, none => True
  | none, some _ => False
  | some a, some b => a ≤ b

/-- The sorter sorts, ascending (`false`) or descending (`true`). -/
def NanSorterSpec [LE K] (sort : Sorter (Option K)) : Prop :=
  ∀ l, IsArgsort torchLe l (sort false l) ∧ IsArgsort (fun a b => torchLe b a) l (sort true l)

section lemmas
variable [LinearOrder K]

theorem filterMap_range {α : Type} (l : List α) : (List.range l.length).filterMap (fun i => l[i]?) = l := by
  induction l with
  | nil => rfl
  | cons a l ih =>
    rw [List.length_cons, List.range_succ_eq_map, List.filterMap_cons]
    simp only [List.getElem?_cons_zero, List.filterMap_map]
    congr 1

theorem sort_isArgsort {sort : Sorter (Option K)} (h : NanSorterSpec sort) (s : Sense) (l : List (Option K)) :
    (sort (s == .max) l).Perm (List.range l.length) ∧
    (sort (s == .max) l).Pairwise fun i j => ∀ x y, l[i]? = some (some x) → l[j]? = some (some y) → NotWorse s x y := by
  cases s
  · exact ⟨(h l).1.1, (h l).1.2.imp fun hh (x y : K) hx hy => (by simpa [NotWorse, torchLe] using hh (some x) (some y) hx hy)⟩
  · exact ⟨(h l).2.1, (h l).2.2.imp fun hh (x y : K) hx hy => (by simpa [NotWorse, torchLe] using hh (some x) (some y) hx hy)⟩

/-- `take_best` splits the batch into a kept part and a rest that is nowhere better. -/
theorem takeBest_split {sort : Sorter (Option K)} (h : NanSorterSpec sort) (s : Sense) (n : Nat) (rows : List (Row V K)) :
    ∃ rest, (takeBest sort s n rows ++ rest).Perm rows ∧ (takeBest sort s n rows).length = min n rows.length ∧
      (∀ r ∈ takeBest sort s n rows, ∀ q ∈ rest, ∀ x y, r.ev = some x → q.ev = some y → NotWorse s x y) ∧
      (takeBest sort s n rows).Pairwise (fun r q => ∀ x y, r.ev = some x → q.ev = some y → NotWorse s x y) := by
  let p := sort (s == .max) (rows.map (·.ev))
  obtain ⟨hp, hs⟩ := sort_isArgsort h s (rows.map (·.ev))
  rw [List.length_map] at hp
  have hlt : ∀ i ∈ p, i < rows.length := fun i hi => by simpa using hp.mem_iff.mp hi
  have hall : ∀ L : List Nat, (∀ i ∈ L, i < rows.length) → (L.filterMap fun i => rows[i]?).length = L.length := by
    intro L hL
    induction L with
    | nil => rfl
    | cons a L ih =>
      rw [List.filterMap_cons, List.getElem?_eq_getElem (hL a (by simp))]
      simp [ih fun i hi => hL i (List.mem_cons_of_mem _ hi)]
  refine ⟨(p.drop n).filterMap fun i => rows[i]?, ?_, ?_, ?_, ?_⟩
  · show ((p.take n).filterMap _ ++ _).Perm _
    rw [← List.filterMap_append, List.take_append_drop]
    have := hp.filterMap (fun i => rows[i]?)
    rw [filterMap_range] at this
    exact this
  · show ((p.take n).filterMap _).length = _
    rw [hall _ fun i hi => hlt i ((List.take_sublist n p).subset hi), List.length_take, hp.length_eq, List.length_range]
  · intro r hr q hq x y hx hy
    obtain ⟨i, hi, hri⟩ := List.mem_filterMap.mp hr
    obtain ⟨j, hj, hqj⟩ := List.mem_filterMap.mp hq
    have hpw := hs
    rw [← List.take_append_drop n (sort (s == .max) (rows.map (·.ev)))] at hpw
    exact (List.pairwise_append.mp hpw).2.2 i hi j hj x y (by rw [List.getElem?_map, hri]; simp [hx])
      (by rw [List.getElem?_map, hqj]; simp [hy])
  · have hpw : (p.take n).Pairwise _ := hs.sublist (List.take_sublist n p)
    show ((p.take n).filterMap _).Pairwise _
    rw [List.pairwise_filterMap]
    refine hpw.imp fun {i j} hij r hr q hq x y hx hy => ?_
    exact hij x y (by rw [List.getElem?_map, hr]; simp [hx]) (by rw [List.getElem?_map, hq]; simp [hy])

theorem takeBest_subset (sort : Sorter (Option K)) (s : Sense) (n : Nat) (rows : List (Row V K)) :
    ∀ r ∈ takeBest sort s n rows, r ∈ rows := by
  intro r hr
  obtain ⟨i, _, h⟩ := List.mem_filterMap.mp hr
  exact List.mem_of_getElem? h

theorem notWorse_refl (s : Sense) (a : K) : NotWorse s a a := by cases s <;> exact le_refl a
theorem notWorse_trans {s : Sense} {a b c : K} (h1 : NotWorse s a b) (h2 : NotWorse s b c) : NotWorse s a c := by
  cases s
  · exact le_trans h1 h2
  · exact le_trans (α := K) h2 h1
theorem notWorse_total (s : Sense) (a b : K) : NotWorse s a b ∨ NotWorse s b a := by
  cases s
  · exact le_total a b
  · exact le_total b a

/-- Every row of a fully evaluated batch is matched by a kept one, if at least one is kept. -/
theorem takeBest_dominates {sort : Sorter (Option K)} (h : NanSorterSpec sort) (s : Sense) {n : Nat} (hn : 1 ≤ n)
    (rows : List (Row V K)) (f : V → K) (hev : ∀ r ∈ rows, r.ev = some (f r.val)) :
    ∀ r ∈ rows, ∃ q ∈ takeBest sort s n rows, NotWorse s (f q.val) (f r.val) := by
  intro r hr
  obtain ⟨rest, hperm, hlen, hbest, _⟩ := takeBest_split h s n rows
  have hpos : 0 < rows.length := List.length_pos_of_mem hr
  have : 0 < (takeBest sort s n rows).length := by rw [hlen]; omega
  rcases List.mem_append.mp (hperm.mem_iff.mpr hr) with h1 | h1
  · exact ⟨r, h1, notWorse_refl s _⟩
  · obtain ⟨q, hq⟩ := List.exists_mem_of_length_pos this
    exact ⟨q, hq, hbest q hq r h1 _ _ (hev q (takeBest_subset _ _ _ _ q hq)) (hev r hr)⟩

theorem evaluate_ev (f : V → K) (rows : List (Row V K)) : ∀ r ∈ evaluate f rows, r.ev = some (f r.val) := by
  intro r hr; obtain ⟨q, _, rfl⟩ := List.mem_map.mp hr; rfl

theorem evaluate_val (f : V → K) (rows : List (Row V K)) : (evaluate f rows).map (·.val) = rows.map (·.val) := by
  simp [evaluate]

theorem evaluate_length (f : V → K) (rows : List (Row V K)) : (evaluate f rows).length = rows.length := by simp [evaluate]

theorem makeExtended_spec (cfg : Cfg K) (env : Env V K) (st : State V K) :
    (makeExtended cfg env st).1.firstIter = false ∧
    (makeExtended cfg env st).1.population.map (·.val) = st.population.map (·.val) ∧
    (makeExtended cfg env st).2.1.map (·.val) = st.population.map (·.val) := by
  unfold makeExtended
  split
  · split
    · simp [evaluate]
    · simp [evaluate]
  · split <;> simp [evaluate]

theorem makeExtended_lengths (cfg : Cfg K) (env : Env V K) (st : State V K) :
    (makeExtended cfg env st).1.population.length = st.population.length ∧
    (makeExtended cfg env st).2.1.length = st.population.length := by
  have h := makeExtended_spec cfg env st
  have h1 := congrArg List.length h.2.1
  have h2 := congrArg List.length h.2.2
  simp only [List.length_map] at h1 h2
  exact ⟨h1, h2⟩

/-- With a deterministic fitness `f`, the state keeps correct evaluations where the algorithm relies on them. -/
def Consistent (cfg : Cfg K) (f : V → K) (st : State V K) : Prop :=
  cfg.reEvaluate = false → st.firstIter = false → ∀ r ∈ st.population, r.ev = some (f r.val)

theorem makeExtended_eval (cfg : Cfg K) (f : V → K) (ops : List (Row V K) → List (Row V K)) (st : State V K) (hc : Consistent cfg f st) :
    (∀ r ∈ (makeExtended cfg ⟨f, f, ops⟩ st).2.1, r.ev = some (f r.val)) ∧
    (∀ r ∈ (makeExtended cfg ⟨f, f, ops⟩ st).2.2, r.ev = some (f r.val)) ∧
    ((cfg.reEvaluate = false ∨ cfg.parentsFirst = true) →
      (makeExtended cfg ⟨f, f, ops⟩ st).1.population = (makeExtended cfg ⟨f, f, ops⟩ st).2.1) := by
  unfold makeExtended
  split
  · split
    · exact ⟨evaluate_ev f _, evaluate_ev f _, fun _ => rfl⟩
    · refine ⟨fun r hr => evaluate_ev f _ r (List.mem_of_mem_take hr), fun r hr => evaluate_ev f _ r (List.mem_of_mem_drop hr), ?_⟩
      intro h; rcases h with h | h <;> simp_all
  · rename_i hre
    refine ⟨?_, evaluate_ev f _, fun _ => rfl⟩
    by_cases hfi : st.firstIter = true
    · simp only [hfi, if_true]; exact evaluate_ev f _
    · simp only [Bool.not_eq_true] at hfi hre
      simp only [hfi, Bool.false_eq_true, if_false]
      exact hc hre hfi

end lemmas

section C22
variable [LinearOrder K]

theorem step_length {cfg : Cfg K} (h : NanSorterSpec cfg.sort) (env : Env V K) (st : State V K)
    (hl : st.population.length = cfg.popsize) : (step cfg env st).population.length = cfg.popsize := by
  have hlen := makeExtended_lengths cfg env st
  unfold step
  generalize he : makeExtended cfg env st = e at hlen
  obtain ⟨st', parents, children⟩ := e
  simp only at hlen ⊢
  split
  · obtain ⟨_, _, hl', _⟩ := takeBest_split h cfg.sense cfg.popsize (parents ++ children)
    rw [hl', List.length_append]; omega
  · split
    · obtain ⟨_, _, hl', _⟩ := takeBest_split h cfg.sense (cfg.popsize - children.length) st'.population
      rw [List.length_append, hl']; omega
    · split
      · assumption
      · obtain ⟨_, _, hl', _⟩ := takeBest_split h cfg.sense cfg.popsize children
        rw [hl']; omega

/-- **C22 (size).** Whatever the configuration, the operators (any number of children) and the evaluations, after every number of steps
the population has exactly `popsize` solutions. -/
theorem C22_population_size {cfg : Cfg K} (h : NanSorterSpec cfg.sort) (envs : List (Env V K)) (vals : List V)
    (hv : vals.length = cfg.popsize) : (run cfg envs (init vals)).population.length = cfg.popsize := by
  have : ∀ (envs : List (Env V K)) (st : State V K), st.population.length = cfg.popsize → (run cfg envs st).population.length = cfg.popsize := by
    intro envs
    induction envs with
    | nil => intro st hst; exact hst
    | cons e es ih => intro st hst; exact ih _ (step_length h e st hst)
  exact this envs _ (by simpa [init] using hv)

theorem step_consistent {cfg : Cfg K} (f : V → K) (ops : List (Row V K) → List (Row V K)) (st : State V K)
    (hc : Consistent cfg f st) : Consistent cfg f (step cfg ⟨f, f, ops⟩ st) := by
  have hE := makeExtended_eval cfg f ops st hc
  intro hre _ r
  unfold step
  generalize he : makeExtended cfg ⟨f, f, ops⟩ st = e at hE
  obtain ⟨st', parents, children⟩ := e
  simp only at hE ⊢
  split
  · intro hr
    rcases List.mem_append.mp (takeBest_subset _ _ _ _ r hr) with h1 | h1
    · exact hE.1 r h1
    · exact hE.2.1 r h1
  · split
    · intro hr
      rcases List.mem_append.mp hr with h1 | h1
      · have := takeBest_subset _ _ _ _ r h1
        rw [hE.2.2 (Or.inl hre)] at this
        exact hE.1 r this
      · exact hE.2.1 r h1
    · split
      · exact hE.2.1 r
      · intro hr; exact hE.2.1 r (takeBest_subset _ _ _ _ r hr)

/-- The configurations of the runs considered for deterministic fitness. -/
def detRun (cfg : Cfg K) (f : V → K) (opss : List (List (Row V K) → List (Row V K))) (st : State V K) : State V K :=
  run cfg (opss.map fun o => ⟨f, f, o⟩) st

theorem detRun_consistent {cfg : Cfg K} (f : V → K) (opss : List (List (Row V K) → List (Row V K))) (st : State V K)
    (hc : Consistent cfg f st) : Consistent cfg f (detRun cfg f opss st) := by
  induction opss generalizing st with
  | nil => exact hc
  | cons o os ih => exact ih _ (step_consistent f o st hc)

/-- **C22 (elitism, one step).** Elitist mode, deterministic fitness `f`, after any number of steps from construction: the next population
is kept from the candidates (the parents and the children produced from them), and no candidate left out is better than one kept. -/
theorem C22_keeps_the_best_candidates {cfg : Cfg K} (h : NanSorterSpec cfg.sort) (he : cfg.elitist = true) (f : V → K)
    (opss : List (List (Row V K) → List (Row V K))) (ops : List (Row V K) → List (Row V K)) (vals : List V) :
    ∃ (parents children : List V) (discarded : List V),
      let st := detRun cfg f opss (init vals)
      let new := (step cfg ⟨f, f, ops⟩ st).population.map (·.val)
      parents = st.population.map (·.val) ∧
      (∃ evaluated, evaluated.map (·.val) = st.population.map (·.val) ∧ children = (ops evaluated).map (·.val)) ∧
      (new ++ discarded).Perm (parents ++ children) ∧
      ∀ a ∈ new, ∀ b ∈ discarded, NotWorse cfg.sense (f a) (f b) := by
  set st := detRun cfg f opss (init vals) with hst
  have hc : Consistent cfg f st := detRun_consistent f opss _ (fun _ hfi => by simp [init] at hfi)
  have hE := makeExtended_eval cfg f ops st hc
  have hS := makeExtended_spec cfg ⟨f, f, ops⟩ st
  have hch : ∃ evaluated : List (Row V K), evaluated.map (·.val) = st.population.map (·.val) ∧
      (makeExtended cfg ⟨f, f, ops⟩ st).2.2.map (·.val) = (ops evaluated).map (·.val) := by
    unfold makeExtended
    split
    · split
      · exact ⟨evaluate f st.population, evaluate_val f _, evaluate_val f _⟩
      · refine ⟨st.population, rfl, ?_⟩
        simp [evaluate, Function.comp_def]
    · split
      · exact ⟨evaluate f st.population, evaluate_val f _, evaluate_val f _⟩
      · exact ⟨st.population, rfl, evaluate_val f _⟩
  have hstep : (step cfg ⟨f, f, ops⟩ st).population = takeBest cfg.sort cfg.sense cfg.popsize
      ((makeExtended cfg ⟨f, f, ops⟩ st).2.1 ++ (makeExtended cfg ⟨f, f, ops⟩ st).2.2) := by
    simp [step, he]
  obtain ⟨rest, hperm, _, hbest, _⟩ := takeBest_split h cfg.sense cfg.popsize
      ((makeExtended cfg ⟨f, f, ops⟩ st).2.1 ++ (makeExtended cfg ⟨f, f, ops⟩ st).2.2)
  have hev : ∀ r ∈ (makeExtended cfg ⟨f, f, ops⟩ st).2.1 ++ (makeExtended cfg ⟨f, f, ops⟩ st).2.2, r.ev = some (f r.val) := by
    intro r hr
    rcases List.mem_append.mp hr with h1 | h1
    · exact hE.1 r h1
    · exact hE.2.1 r h1
  refine ⟨_, (makeExtended cfg ⟨f, f, ops⟩ st).2.2.map (·.val), rest.map (·.val), rfl, ?_, ?_, ?_⟩
  · obtain ⟨ev, h1, h2⟩ := hch
    exact ⟨ev, h1, h2⟩
  · rw [← List.map_append, hstep]
    have := hperm.map (·.val)
    simp only [List.map_append, hS.2.2] at this
    simpa only [List.map_append] using this
  · intro a ha b hb
    obtain ⟨r, hr, rfl⟩ := List.mem_map.mp ha
    obtain ⟨q, hq, rfl⟩ := List.mem_map.mp hb
    rw [hstep] at hr
    exact hbest r hr q hq _ _ (hev r (takeBest_subset _ _ _ _ r hr)) (hev q (hperm.mem_iff.mp (List.mem_append_right _ hq)))

/-- **C22 (elitism, runs).** Elitist mode, deterministic fitness: nothing in the population is lost without a replacement at least as good,
over any number of further steps. So the best fitness never worsens. -/
theorem C22_best_never_worsens {cfg : Cfg K} (h : NanSorterSpec cfg.sort) (he : cfg.elitist = true) (hp : 1 ≤ cfg.popsize) (f : V → K)
    (opss opss' : List (List (Row V K) → List (Row V K))) (vals : List V) :
    ∀ r ∈ (detRun cfg f opss (init vals)).population, ∃ q ∈ (detRun cfg f (opss ++ opss') (init vals)).population,
      NotWorse cfg.sense (f q.val) (f r.val) := by
  have key : ∀ (opss' : List (List (Row V K) → List (Row V K))) (st : State V K), Consistent cfg f st →
      ∀ r ∈ st.population, ∃ q ∈ (detRun cfg f opss' st).population, NotWorse cfg.sense (f q.val) (f r.val) := by
    intro opss'
    induction opss' with
    | nil => intro st _ r hr; exact ⟨r, hr, notWorse_refl _ _⟩
    | cons o os ih =>
      intro st hc r hr
      have hE := makeExtended_eval cfg f o st hc
      have hS := makeExtended_spec cfg ⟨f, f, o⟩ st
      have hstep : (step cfg ⟨f, f, o⟩ st).population = takeBest cfg.sort cfg.sense cfg.popsize
          ((makeExtended cfg ⟨f, f, o⟩ st).2.1 ++ (makeExtended cfg ⟨f, f, o⟩ st).2.2) := by
        simp [step, he]
      have hmem : r.val ∈ (makeExtended cfg ⟨f, f, o⟩ st).2.1.map (·.val) := by
        rw [hS.2.2]; exact List.mem_map.mpr ⟨r, hr, rfl⟩
      obtain ⟨r', hr', hv⟩ := List.mem_map.mp hmem
      obtain ⟨q, hq, hqr⟩ := takeBest_dominates h cfg.sense hp _ f (fun r hr => by
        rcases List.mem_append.mp hr with h1 | h1
        · exact hE.1 r h1
        · exact hE.2.1 r h1) r' (List.mem_append_left _ hr')
      rw [← hstep] at hq
      obtain ⟨q', hq', hqq⟩ := ih (step cfg ⟨f, f, o⟩ st) (step_consistent f o st hc) q hq
      refine ⟨q', hq', notWorse_trans hqq ?_⟩
      rw [← hv]; exact hqr
  intro r hr
  have hrun : detRun cfg f (opss ++ opss') (init vals) = detRun cfg f opss' (detRun cfg f opss (init vals)) := by
    have : ∀ (a b : List (Env V K)) st, run cfg (a ++ b) st = run cfg b (run cfg a st) := by
      intro a
      induction a with
      | nil => intro b st; rfl
      | cons e es ih => intro b st; exact ih b _
    simp only [detRun, List.map_append, this]
  rw [hrun]
  exact key opss' _ (detRun_consistent f opss _ (fun _ hfi => by simp [init] at hfi)) r hr

end C22

/-! Examples use a concrete sorter. -/

/-- Comparison of rational evaluations, NaN greatest. -/
def qle (a b : Option ℚ) : Bool := match a, b with
  | _, none => true
  | none, some _ => false
  | some x, some y => decide (x ≤ y)

theorem qle_iff (a b : Option ℚ) : qle a b = true ↔ torchLe a b := by
  cases a <;> cases b <;> simp [qle, torchLe]

theorem qle_total (a b : Option ℚ) : qle a b = true ∨ qle b a = true := by
  cases a <;> cases b <;> simp [qle]
  exact le_total _ _

theorem qle_trans (a b c : Option ℚ) (h1 : qle a b = true) (h2 : qle b c = true) : qle a c = true := by
  cases a <;> cases b <;> cases c <;> simp [qle] at *
  exact le_trans h1 h2

/-- A concrete sorter (stable) for rational evaluations with NaN. -/
def qSorter : Sorter (Option ℚ) := fun d l => Selection.stableArgsort (fun a b => if d then qle b a else qle a b) l

/-- It meets the specification assumed of `torch.argsort`. -/
theorem qSorter_spec : NanSorterSpec qSorter := by
  intro l
  constructor
  · have h := Selection.stableArgsort_spec qle qle_total qle_trans l
    have e : qSorter false l = Selection.stableArgsort qle l := by simp [qSorter]
    rw [e]
    simpa only [qle_iff] using h
  · have h := Selection.stableArgsort_spec (fun a b => qle b a) (fun a b => qle_total b a) (fun a b c h1 h2 => qle_trans c b a h2 h1) l
    have e : qSorter true l = Selection.stableArgsort (fun a b => qle b a) l := by simp [qSorter]
    rw [e]
    simpa only [qle_iff] using h

def exampleCfg : Cfg ℚ := ⟨qSorter, .min, 2, true, true, true⟩

example : ((detRun exampleCfg (fun v : ℚ => v * v) [fun rows => rows.map fun r => { r with val := r.val - 1 }] (init [3, -2])).population).map
    (·.val) = [-2, 2] := by decide +kernel

section C23
variable [LinearOrder K]

/-- **C23 (proved part).** Non-elitist mode, fewer children than places, and a configuration that keeps the parents of the population object
evaluated (`re_evaluate=False`, or parents evaluated first): the new population is the children together with parents such that no
parent left out is better than one kept. What is missing: `re_evaluate=True, re_evaluate_parents_first=False`, see `C23_violated`. -/
theorem C23_keeps_best_parents_partial {cfg : Cfg K} (h : NanSorterSpec cfg.sort) (hne : cfg.elitist = false)
    (hcfg : cfg.reEvaluate = false ∨ cfg.parentsFirst = true) (f : V → K)
    (opss : List (List (Row V K) → List (Row V K))) (ops : List (Row V K) → List (Row V K)) (vals : List V) :
    let st := detRun cfg f opss (init vals)
    ∃ evaluated : List (Row V K), evaluated.map (·.val) = st.population.map (·.val) ∧ (∀ r ∈ evaluated, r.ev = some (f r.val)) ∧
      ((ops evaluated).length < cfg.popsize →
        ∃ kept discarded : List (Row V K), (kept ++ discarded).Perm evaluated ∧
          (step cfg ⟨f, f, ops⟩ st).population.map (·.val) = kept.map (·.val) ++ (ops evaluated).map (·.val) ∧
          kept.length = min (cfg.popsize - (ops evaluated).length) st.population.length ∧
          ∀ a ∈ kept, ∀ b ∈ discarded, NotWorse cfg.sense (f a.val) (f b.val)) := by
  intro st
  have hc : Consistent cfg f st := detRun_consistent f opss _ (fun _ hfi => by simp [init] at hfi)
  have hE := makeExtended_eval cfg f ops st hc
  have hS := makeExtended_spec cfg ⟨f, f, ops⟩ st
  have hpop := hE.2.2 hcfg
  have hch : (makeExtended cfg ⟨f, f, ops⟩ st).2.2 = evaluate f (ops (makeExtended cfg ⟨f, f, ops⟩ st).2.1) := by
    unfold makeExtended
    split
    · split
      · rfl
      · rcases hcfg with h | h <;> simp_all
    · rfl
  refine ⟨(makeExtended cfg ⟨f, f, ops⟩ st).2.1, hS.2.2, hE.1, fun hlt => ?_⟩
  have hstep : (step cfg ⟨f, f, ops⟩ st).population = takeBest cfg.sort cfg.sense
      (cfg.popsize - (ops (makeExtended cfg ⟨f, f, ops⟩ st).2.1).length) (makeExtended cfg ⟨f, f, ops⟩ st).2.1 ++
        (makeExtended cfg ⟨f, f, ops⟩ st).2.2 := by
    have hlc : (makeExtended cfg ⟨f, f, ops⟩ st).2.2.length = (ops (makeExtended cfg ⟨f, f, ops⟩ st).2.1).length := by
      rw [hch, evaluate_length]
    simp only [step, hne, Bool.false_eq_true, if_false, hlc, hlt, if_true, hpop]
  obtain ⟨rest, hperm, hlen, hbest, _⟩ := takeBest_split h cfg.sense
    (cfg.popsize - (ops (makeExtended cfg ⟨f, f, ops⟩ st).2.1).length) (makeExtended cfg ⟨f, f, ops⟩ st).2.1
  refine ⟨_, rest, hperm, ?_, ?_, ?_⟩
  · rw [hstep, List.map_append, hch, evaluate_val]
  · rw [hlen, (makeExtended_lengths cfg ⟨f, f, ops⟩ st).2]
  · intro a ha b hb
    exact hbest a ha b hb _ _ (hE.1 a (takeBest_subset _ _ _ _ a ha)) (hE.1 b (hperm.mem_iff.mp (List.mem_append_right _ hb)))

/-- **C23 is violated** by `elitist=False, re_evaluate=True, re_evaluate_parents_first=False` (the default for operators without
cross-over): whatever sorting routine is used, there is a population of two and an operator giving one child for which the first step keeps
the worse parent, and keeps it without an evaluation. -/
theorem C23_violated (sort : Sorter (Option ℚ)) (h : NanSorterSpec sort) :
    ∃ (vals : List ℚ) (ops : List (Row ℚ ℚ) → List (Row ℚ ℚ)),
      let cfg : Cfg ℚ := ⟨sort, .min, 2, false, true, false⟩
      let new := (step cfg ⟨id, id, ops⟩ (init vals)).population
      vals.length = 2 ∧ (∃ a b, a ∈ vals ∧ b ∈ vals ∧ a < b ∧ (∃ r ∈ new, r.val = b ∧ r.ev = none) ∧ ∀ r ∈ new, r.val ≠ a) := by
  have hmm : (Sense.min == Sense.max) = false := rfl
  have hp : (sort false [none, none]).Perm [0, 1] := (h [none, none]).1.1
  have hcase : sort false [none, none] = [0, 1] ∨ sort false [none, none] = [1, 0] := by
    have hl := hp.length_eq
    have hm0 : (0 : Nat) ∈ sort false [none, none] := hp.mem_iff.mpr (by simp)
    have hm1 : (1 : Nat) ∈ sort false [none, none] := hp.mem_iff.mpr (by simp)
    match hs : sort false [none, none], hl with
    | [x, y], _ =>
      rw [hs] at hm0 hm1
      simp only [List.mem_cons, List.not_mem_nil, or_false] at hm0 hm1
      rcases hm0 with rfl | rfl <;> rcases hm1 with h1 | h1 <;> first | omega | (subst h1; simp)
  rcases hcase with hc | hc
  · refine ⟨[5, 1], fun _ => [⟨7, none⟩], rfl, 1, 5, by simp, by simp, by norm_num, ?_⟩
    simp [step, makeExtended, init, evaluate, takeBest, hmm, hc]
  · refine ⟨[1, 5], fun _ => [⟨7, none⟩], rfl, 1, 5, by simp, by simp, by norm_num, ?_⟩
    simp [step, makeExtended, init, evaluate, takeBest, hmm, hc]

end C23

section C24

/-- Specification of operator registration: what was given at construction, the two slots, and whether the search has started. -/
structure Registry where
  given : List Op
  cross : Option Op
  mutation : Option Op
  started : Bool

/-- `use`: only before the start, only without operators given at construction, each slot once. -/
def Registry.use (r : Registry) (op : Op) : Outcome Registry Unit :=
  if r.started ∨ r.given ≠ [] then ⟨r, .error .runtimeError⟩
  else match op.isCross, r.cross, r.mutation with
    | true, none, _ => ⟨{ r with cross := some op }, .ok ()⟩
    | false, _, none => ⟨{ r with mutation := some op }, .ok ()⟩
    | _, _, _ => ⟨r, .error .valueError⟩

/-- The operators in effect: the given ones, otherwise the cross-over followed by the mutation. -/
def Registry.inEffect (r : Registry) : List Op := if r.given = [] then r.cross.toList ++ r.mutation.toList else r.given

/-- A step starts the search and uses the operators in effect; without any it raises. -/
def Registry.step (r : Registry) : Outcome Registry (List Op) :=
  ⟨{ r with started := true }, if r.inEffect = [] then .error .runtimeError else .ok r.inEffect⟩

/-- Calls. -/
inductive Call where
  | use (op : Op)
  | step

/-- Results of a sequence of calls on the code. -/
def ssRun : List Call → SSState → List (Except PyErr (List Op))
  | [], _ => []
  | .use op :: cs, st => (ssUse st op).result.map (fun _ => []) :: ssRun cs (ssUse st op).state
  | .step :: cs, st => (ssStep st).result :: ssRun cs (ssStep st).state

/-- Results of a sequence of calls on the specification. -/
def specRun : List Call → Registry → List (Except PyErr (List Op))
  | [], _ => []
  | .use op :: cs, r => (r.use op).result.map (fun _ => []) :: specRun cs (r.use op).state
  | .step :: cs, r => r.step.result :: specRun cs r.step.state

/-- Simulation relation. -/
def Sim (st : SSState) (r : Registry) : Prop :=
  st.forbidUse = r.started ∧ (r.given ≠ [] → r.cross = none ∧ r.mutation = none) ∧
  (r.started = false → st.operators = r.given ∧ st.crossOp = r.cross ∧ st.mutOp = r.mutation ∧
    st.prepareOps = (r.cross.isSome || r.mutation.isSome)) ∧
  (r.started = true → st.operators = r.inEffect ∧ st.prepareOps = false)

theorem sim_use {st : SSState} {r : Registry} (h : Sim st r) (op : Op) :
    (ssUse st op).result = (r.use op).result ∧ Sim (ssUse st op).state (r.use op).state := by
  obtain ⟨so, sc, sm, sf, sp⟩ := st
  obtain ⟨g, c, m, s⟩ := r
  obtain ⟨h1, h2, h3, h4⟩ := h
  simp only at h1 h2 h3 h4
  subst h1
  cases sf
  · obtain ⟨rfl, rfl, rfl, rfl⟩ := h3 rfl
    cases so with
    | nil =>
      obtain ⟨b, k⟩ := op
      cases b <;> cases sc <;> cases sm <;> simp [ssUse, Registry.use, Sim]
    | cons a t =>
      obtain ⟨rfl, rfl⟩ := h2 (by simp)
      simp [ssUse, Registry.use, Sim]
  · obtain ⟨rfl, rfl⟩ := h4 rfl
    simp only [ssUse, Registry.use, Sim, if_true, true_or]
    exact ⟨trivial, trivial, h2, fun h => by simp at h, fun _ => ⟨trivial, trivial⟩⟩

theorem sim_step {st : SSState} {r : Registry} (h : Sim st r) :
    (ssStep st).result = r.step.result ∧ Sim (ssStep st).state r.step.state := by
  obtain ⟨so, sc, sm, sf, sp⟩ := st
  obtain ⟨g, c, m, s⟩ := r
  obtain ⟨h1, h2, h3, h4⟩ := h
  simp only at h1 h2 h3 h4
  subst h1
  cases sf
  · obtain ⟨rfl, rfl, rfl, rfl⟩ := h3 rfl
    cases so with
    | nil => cases sc <;> cases sm <;> simp [ssStep, Registry.step, Registry.inEffect, Sim]
    | cons a t =>
      obtain ⟨rfl, rfl⟩ := h2 (by simp)
      simp [ssStep, Registry.step, Registry.inEffect, Sim]
  · obtain ⟨h5, rfl⟩ := h4 rfl
    have hlen : so.length = 0 ↔ (Registry.inEffect ⟨g, c, m, true⟩) = [] := by rw [h5]; exact List.length_eq_zero_iff
    refine ⟨?_, ?_⟩
    · simp only [ssStep, Registry.step, Bool.false_eq_true, if_false]
      by_cases hh : so.length = 0
      · rw [if_pos hh, if_pos (hlen.mp hh)]
      · rw [if_neg hh, if_neg (fun x => hh (hlen.mpr x)), h5]
    · have : (ssStep ⟨so, sc, sm, true, false⟩).state = ⟨so, sc, sm, true, false⟩ := by
        simp only [ssStep, Bool.false_eq_true, if_false]; split <;> rfl
      rw [this]
      exact ⟨rfl, h2, fun h => by simp [Registry.step] at h, fun _ => ⟨h5, rfl⟩⟩

/-- **C24.** For every list of operators given at construction and every sequence of `use` and `step` calls, `SteadyStateGA` returns (or
raises) exactly what the specification says: `use` works only before the first step, only without operators given at construction, once per
slot; a failed `use` changes nothing; every step uses the operators in effect and fails when there are none. -/
theorem C24_use_protocol (ops : List Op) (calls : List Call) :
    ssRun calls (ssInit ops) = specRun calls ⟨ops, none, none, false⟩ := by
  have key : ∀ (calls : List Call) (st : SSState) (r : Registry), Sim st r → ssRun calls st = specRun calls r := by
    intro calls
    induction calls with
    | nil => intro st r _; rfl
    | cons c cs ih =>
      intro st r h
      cases c with
      | use op =>
        obtain ⟨h1, h2⟩ := sim_use h op
        simp only [ssRun, specRun, h1, ih _ _ h2]
      | step =>
        obtain ⟨h1, h2⟩ := sim_step h
        simp only [ssRun, specRun, h1, ih _ _ h2]
  apply key
  simp [Sim, ssInit]

/-- A failed `use` leaves the registered operators unchanged. -/
theorem C24_failed_use_changes_nothing (st : SSState) (op : Op) (e : PyErr) (h : (ssUse st op).result = .error e) :
    (ssUse st op).state = st := by
  unfold ssUse at h ⊢
  split
  · rfl
  · split
    · rfl
    · split
      · split
        · rfl
        · simp_all
      · split
        · rfl
        · simp_all

example : ssRun [.use ⟨false, 7⟩, .use ⟨true, 3⟩, .step, .use ⟨true, 4⟩, .step] (ssInit []) =
    [.ok [], .ok [], .ok [⟨true, 3⟩, ⟨false, 7⟩], .error .runtimeError, .ok [⟨true, 3⟩, ⟨false, 7⟩]] := by rfl
example : ssRun [.use ⟨false, 7⟩, .use ⟨false, 8⟩, .step] (ssInit []) = [.ok [], .error .valueError, .ok [⟨false, 7⟩]] := by rfl

end C24

section C25
variable [LinearOrder K]

/-- `CosynePermutation` returns as many solutions as it gets (`real.py:698-706`). -/
def SameLength (permute : List (Row V K) → List (Row V K)) : Prop := ∀ l, (permute l).length = l.length

/-- **C25 (size).** Whatever the numbers of elites, children and the fitnesses: after every step the population has `popsize` solutions. -/
theorem C25_population_size {cfg : CosyneCfg K} (h : NanSorterSpec cfg.sort) (f0 f : V → K)
    (breed permute : List (Row V K) → List (Row V K)) (hperm : SameLength permute) (st : State V K)
    (hl : st.population.length = cfg.popsize) : (cosyneStep cfg f0 f breed permute st).population.length = cfg.popsize := by
  simp only [cosyneStep]
  set pop := if st.firstIter then evaluate f0 st.population else st.population with hpop
  have hpl : pop.length = cfg.popsize := by rw [hpop]; split <;> simp [evaluate_length, hl]
  have key : ∀ E : List (Row V K), cfg.popsize ≤ E.length → (takeBest cfg.sort cfg.sense cfg.popsize E).length = cfg.popsize := by
    intro E hE
    obtain ⟨_, _, hl', _⟩ := takeBest_split h cfg.sense cfg.popsize E
    omega
  apply key
  rw [evaluate_length, List.length_append, List.length_append, hperm pop, hpl]
  omega

theorem cosyne_eval {cfg : CosyneCfg K} (f0 f : V → K) (breed permute : List (Row V K) → List (Row V K)) (st : State V K) :
    ∀ r ∈ (cosyneStep cfg f0 f breed permute st).population, r.ev = some (f r.val) := by
  intro r hr
  exact evaluate_ev f _ r (takeBest_subset _ _ _ _ r hr)

/-- **C25 (elites).** With `num_elites ≥ 1` and a deterministic fitness, over any number of steps: whatever is in the population is matched
later by something at least as good. -/
theorem C25_best_never_worsens {cfg : CosyneCfg K} (h : NanSorterSpec cfg.sort) {e : Nat} (hel : cfg.numElites = some e) (he : 1 ≤ e)
    (hp : 1 ≤ cfg.popsize) (f : V → K)
    (steps steps' : List ((List (Row V K) → List (Row V K)) × (List (Row V K) → List (Row V K)))) (vals : List V) :
    ∀ r ∈ (cosyneRun cfg f steps (init vals)).population, ∃ q ∈ (cosyneRun cfg f (steps ++ steps') (init vals)).population,
      NotWorse cfg.sense (f q.val) (f r.val) := by
  have hone : ∀ (bp : (List (Row V K) → List (Row V K)) × (List (Row V K) → List (Row V K))) (st : State V K),
      (st.firstIter = false → ∀ r ∈ st.population, r.ev = some (f r.val)) →
      ∀ r ∈ st.population, ∃ q ∈ (cosyneStep cfg f f bp.1 bp.2 st).population, NotWorse cfg.sense (f q.val) (f r.val) := by
    intro bp st hc r hr
    simp only [cosyneStep, hel, Option.getD_some, if_pos he]
    set pop := if st.firstIter then evaluate f st.population else st.population with hpop
    have hev : ∀ r ∈ pop, r.ev = some (f r.val) := by
      rw [hpop]
      by_cases hfi : st.firstIter = true
      · simp only [hfi, if_true]; exact evaluate_ev f _
      · simp only [Bool.not_eq_true] at hfi
        simp only [hfi, Bool.false_eq_true, if_false]; exact hc hfi
    have hval : pop.map (·.val) = st.population.map (·.val) := by
      rw [hpop]; split
      · exact evaluate_val f _
      · rfl
    have hmem : r.val ∈ pop.map (·.val) := by rw [hval]; exact List.mem_map.mpr ⟨r, hr, rfl⟩
    obtain ⟨r', hr', hv⟩ := List.mem_map.mp hmem
    have hpos : 0 < pop.length := List.length_pos_of_mem hr'
    set n := max e (cfg.popsize / 4) with hn
    obtain ⟨rest, hperm, hlen, hbest, hsorted⟩ := takeBest_split h cfg.sense n pop
    -- the first of the relevant ones is an elite and at least as good as everything
    have hne : 0 < (takeBest cfg.sort cfg.sense n pop).length := by rw [hlen]; omega
    obtain ⟨q, t, hqt⟩ := List.exists_cons_of_length_pos hne
    have hq1 : q ∈ takeBest cfg.sort cfg.sense n pop := by rw [hqt]; simp
    have hqr : NotWorse cfg.sense (f q.val) (f r'.val) := by
      rcases List.mem_append.mp (hperm.mem_iff.mpr hr') with h1 | h1
      · rw [hqt] at h1 hsorted
        rcases List.mem_cons.mp h1 with rfl | h1
        · exact notWorse_refl _ _
        · exact (List.pairwise_cons.mp hsorted).1 r' h1 _ _ (hev q (takeBest_subset _ _ _ _ q hq1)) (hev r' hr')
      · exact hbest q hq1 r' h1 _ _ (hev q (takeBest_subset _ _ _ _ q hq1)) (hev r' hr')
    have hqe : q ∈ (takeBest cfg.sort cfg.sense n pop).take e := by
      rw [hqt]
      obtain ⟨e', rfl⟩ : ∃ e', e = e' + 1 := ⟨e - 1, by omega⟩
      simp
    set ext := evaluate f ((takeBest cfg.sort cfg.sense n pop).take e ++
      (bp.1 ((takeBest cfg.sort cfg.sense n pop).take (cfg.popsize / 4)) ++ bp.2 pop)) with hext
    have hqm : (⟨q.val, some (f q.val)⟩ : Row V K) ∈ ext :=
      List.mem_map.mpr ⟨q, List.mem_append_left _ hqe, rfl⟩
    obtain ⟨w, hw, hwq⟩ := takeBest_dominates h cfg.sense hp ext f (evaluate_ev f _) _ hqm
    exact ⟨w, hw, notWorse_trans hwq (hv ▸ hqr)⟩
  have key : ∀ (steps' : List ((List (Row V K) → List (Row V K)) × (List (Row V K) → List (Row V K)))) (st : State V K),
      (st.firstIter = false → ∀ r ∈ st.population, r.ev = some (f r.val)) →
      ∀ r ∈ st.population, ∃ q ∈ (cosyneRun cfg f steps' st).population, NotWorse cfg.sense (f q.val) (f r.val) := by
    intro steps'
    induction steps' with
    | nil => intro st _ r hr; exact ⟨r, hr, notWorse_refl _ _⟩
    | cons bp bps ih =>
      intro st hc r hr
      obtain ⟨q, hq, hqr⟩ := hone bp st hc r hr
      obtain ⟨q', hq', hqq⟩ := ih (cosyneStep cfg f f bp.1 bp.2 st) (fun _ => cosyne_eval f f bp.1 bp.2 st) q hq
      exact ⟨q', hq', notWorse_trans hqq hqr⟩
  have hrun : ∀ (a b : List ((List (Row V K) → List (Row V K)) × (List (Row V K) → List (Row V K)))) st,
      cosyneRun cfg f (a ++ b) st = cosyneRun cfg f b (cosyneRun cfg f a st) := by
    intro a
    induction a with
    | nil => intro b st; rfl
    | cons e es ih => intro b st; exact ih b _
  have hcon : ∀ (a : List ((List (Row V K) → List (Row V K)) × (List (Row V K) → List (Row V K)))) (st : State V K),
      (st.firstIter = false → ∀ r ∈ st.population, r.ev = some (f r.val)) →
      ((cosyneRun cfg f a st).firstIter = false → ∀ r ∈ (cosyneRun cfg f a st).population, r.ev = some (f r.val)) := by
    intro a
    induction a with
    | nil => intro st h; exact h
    | cons e es ih => intro st _; exact ih _ (fun _ => cosyne_eval f f e.1 e.2 st)
  intro r hr
  rw [hrun]
  exact key steps' _ (hcon steps _ (fun hfi => by simp [init] at hfi)) r hr

example : SameLength (List.reverse : List (Row ℚ ℚ) → List (Row ℚ ℚ)) := fun l => List.length_reverse

def exampleCosyne : CosyneCfg ℚ := ⟨qSorter, .max, 4, some 1⟩

example : ((cosyneRun exampleCosyne (fun v : ℚ => v) [(fun rows => rows.map fun r => { r with val := r.val - 7 }, List.reverse)]
    (init [3, 9, 4, 1])).population).map (·.val) = [9, 9, 4, 3] := by decide +kernel

end C25
end EvoTorch.GA
