import Verif.Model.Generations
import Verif.Props.Selection
import Verif.Props.Ranking
import Verif.Props.CMAES
/-! Property C115: invariance under increasing transformations of the fitness, the duality of the two senses, and equivariance under changes of coordinates. -/
namespace EvoTorch.Generations
open Matrix Selection
open BestWorst (Sense)
open Distribution (Vec)
variable {d n : Nat}

/-! ### Sorting depends on comparisons only -/

/-- Comparison in ascending or descending order. -/
def Before (descending : Bool) (a b : ℝ) : Prop := if descending then b ≤ a else a ≤ b

/-- Two lists whose elements at any two positions compare alike, the first in the order `b`, the second in the order `b'`. -/
def Alike (b b' : Bool) (x y : List ℝ) : Prop :=
  x.length = y.length ∧ ∀ i j (hi : i < x.length) (hj : j < x.length) (hi' : i < y.length) (hj' : j < y.length), Before b x[i] x[j] ↔ Before b' y[i] y[j]

/-- The result of sorting depends only on how the elements compare. Every sorting algorithm based on comparisons has this property, and any other has it for lists without ties (`sorter_unique`). -/
def OrderOnly (sort : Sorter ℝ) : Prop := ∀ b b' x y, Alike b b' x y → sort b x = sort b' y

theorem argsort_unique {r r' : ℝ → ℝ → Prop} {x y : List ℝ} {p q : List Nat} (hp : IsArgsort r x p) (hq : IsArgsort r' y q) (hl : x.length = y.length)
    (hr : ∀ i j (hi : i < x.length) (hj : j < x.length) (hi' : i < y.length) (hj' : j < y.length), r x[i] x[j] ↔ r' y[i] y[j])
    (ha : ∀ i j (hi : i < x.length) (hj : j < x.length), r x[i] x[j] → r x[j] x[i] → i = j) : p = q := by
  have hpq : p.Perm q := hp.1.trans (by rw [hl]; exact hq.1.symm)
  have hmem : ∀ i ∈ p, i < x.length := fun i hi => List.mem_range.1 (hp.1.mem_iff.1 hi)
  let R : Nat → Nat → Prop := fun i j => ∀ (hi : i < x.length) (hj : j < x.length), r x[i] x[j]
  have h1 : p.Pairwise R := hp.2.imp fun {i j} h hi hj => h _ _ (List.getElem?_eq_getElem hi) (List.getElem?_eq_getElem hj)
  have h2 : q.Pairwise R := hq.2.imp fun {i j} h hi hj =>
    (hr i j hi hj (hl ▸ hi) (hl ▸ hj)).2 (h _ _ (List.getElem?_eq_getElem (hl ▸ hi)) (List.getElem?_eq_getElem (hl ▸ hj)))
  refine hpq.eq_of_pairwise ?_ h1 h2
  intro a b hap hbq hab hba
  have h1 := hmem a hap
  have h2 := hmem b (hpq.mem_iff.2 hbq)
  exact ha a b h1 h2 (hab h1 h2) (hba h2 h1)

/-- Without ties the result of any sorting function that sorts depends only on how the elements compare. -/
theorem sorter_unique {sort : Sorter ℝ} (h : SorterSpec sort) {b b' : Bool} {x y : List ℝ} (hx : x.Nodup) (ha : Alike b b' x y) : sort b x = sort b' y := by
  have hs : ∀ b l, IsArgsort (Before b) l (sort b l) := by
    intro b l
    cases b
    · exact (h l).1
    · exact (h l).2
  refine argsort_unique (hs b x) (hs b' y) ha.1 ha.2 fun i j hi hj h1 h2 => ?_
  have : x[i] = x[j] := by
    cases b
    · exact le_antisymm h1 h2
    · exact le_antisymm h2 h1
  exact (List.Nodup.getElem_inj_iff hx).1 this

theorem orderedInsert_congr {α : Type} {r r' : α → α → Prop} [DecidableRel r] [DecidableRel r'] (a : α) : ∀ (l : List α), (∀ c ∈ l, (r a c ↔ r' a c)) → l.orderedInsert r a = l.orderedInsert r' a
  | [], _ => rfl
  | b :: l, h => by
    have ih := orderedInsert_congr (r := r) (r' := r') a l fun c hc => h c (List.mem_cons_of_mem _ hc)
    simp only [List.orderedInsert_cons, ih, h b List.mem_cons_self]

theorem insertionSort_congr {α : Type} {r r' : α → α → Prop} [DecidableRel r] [DecidableRel r'] : ∀ (l : List α), (∀ a ∈ l, ∀ c ∈ l, (r a c ↔ r' a c)) → l.insertionSort r = l.insertionSort r'
  | [], _ => rfl
  | a :: l, h => by
    rw [List.insertionSort_cons, List.insertionSort_cons, insertionSort_congr l fun a ha c hc => h a (List.mem_cons_of_mem _ ha) c (List.mem_cons_of_mem _ hc)]
    exact orderedInsert_congr a _ fun c hc => h a List.mem_cons_self c (List.mem_cons_of_mem _ ((List.perm_insertionSort r' l).mem_iff.1 hc))

theorem exampleSorter_orderOnly : OrderOnly exampleSorter := by
  intro b b' x y h
  unfold exampleSorter stableArgsort
  rw [← h.1]
  refine insertionSort_congr _ fun i hi j hj => ?_
  have hi := List.mem_range.1 hi
  have hj := List.mem_range.1 hj
  rw [List.getElem?_eq_getElem hi, List.getElem?_eq_getElem hj, List.getElem?_eq_getElem (h.1 ▸ hi), List.getElem?_eq_getElem (h.1 ▸ hj)]
  have := h.2 i j hi hj (h.1 ▸ hi) (h.1 ▸ hj)
  unfold Before at this
  cases b <;> cases b' <;> simpa using this

theorem alike_mono {φ : ℝ → ℝ} (x : List ℝ) (hφ : ∀ a ∈ x, ∀ b ∈ x, a < b → φ a < φ b) (b : Bool) : Alike b b x (x.map φ) := by
  refine ⟨by simp, fun i j hi hj hi' hj' => ?_⟩
  have key : ∀ a ∈ x, ∀ b ∈ x, (a ≤ b ↔ φ a ≤ φ b) := by
    intro a ha b hb
    constructor
    · intro h
      rcases h.eq_or_lt with rfl | h
      · exact le_rfl
      · exact (hφ a ha b hb h).le
    · intro h
      by_contra hc
      exact absurd h (not_le.2 (hφ b hb a ha (not_le.1 hc)))
  simp only [List.getElem_map]
  have h1 := List.getElem_mem hi
  have h2 := List.getElem_mem hj
  cases b
  · exact key _ h1 _ h2
  · exact key _ h2 _ h1

theorem alike_neg (x : List ℝ) (b : Bool) : Alike b (!b) x (x.map fun a => -a) := by
  refine ⟨by simp, fun i j hi hj hi' hj' => ?_⟩
  simp only [List.getElem_map]
  cases b <;> simp [Before]

/-! ### Rankings -/

/-- The rankings that use the order of the fitnesses only. -/
def Method.orderBased : Method → Bool
  | .nes => true
  | .centered => true
  | .linear => true
  | _ => false

theorem rank_mono {sort : Sorter ℝ} {φ : ℝ → ℝ} {x : List ℝ} {m : Method} (hm : m.orderBased = true) (hib : Bool) (hs : sort (!hib) (x.map φ) = sort (!hib) x) :
    rank sort m hib (x.map φ) = rank sort m hib x := by
  cases m <;> simp only [Method.orderBased, Bool.false_eq_true] at hm <;> simp only [rank, Ranking.nes, Ranking.centered, Ranking.linear, hs, List.length_map]

theorem rank_neg {sort : Sorter ℝ} {x : List ℝ} (m : Method) (hs : sort false (x.map fun a => -a) = sort true x) :
    rank sort m true (x.map fun a => -a) = rank sort m false x := by
  cases m <;> simp [rank, Ranking.nes, Ranking.centered, Ranking.linear, Ranking.normalized, Ranking.raw, hs]

/-- C115: the rankings that use the order only give the same utilities after a strictly increasing transformation of the fitnesses, when there are no ties. -/
theorem C115_rank_monotone {sort : Sorter ℝ} (h : SorterSpec sort) {x : List ℝ} (hx : x.Nodup) {φ : ℝ → ℝ} (hφ : ∀ a ∈ x, ∀ b ∈ x, a < b → φ a < φ b) {m : Method} (hm : m.orderBased = true) (hib : Bool) :
    rank sort m hib (x.map φ) = rank sort m hib x :=
  rank_mono hm hib (sorter_unique h hx (alike_mono x hφ _)).symm

/-- C115: minimising is maximising the negated fitness, for every ranking method, when there are no ties. -/
theorem C115_rank_sense {sort : Sorter ℝ} (h : SorterSpec sort) {x : List ℝ} (hx : x.Nodup) (m : Method) : rank sort m true (x.map fun a => -a) = rank sort m false x :=
  rank_neg m (sorter_unique h hx (alike_neg x true)).symm

theorem orderOnly_mono {sort : Sorter ℝ} (h : OrderOnly sort) {φ : ℝ → ℝ} (hφ : StrictMono φ) (b : Bool) (x : List ℝ) : sort b (x.map φ) = sort b x :=
  (h b b x (x.map φ) (alike_mono x (fun _ _ _ _ hab => hφ hab) b)).symm

theorem orderOnly_neg {sort : Sorter ℝ} (h : OrderOnly sort) (b : Bool) (x : List ℝ) : sort (!b) (x.map fun a => -a) = sort b x :=
  (h b (!b) x _ (alike_neg x b)).symm

theorem utilities_mono {sort : Sorter ℝ} (h : OrderOnly sort) {φ : ℝ → ℝ} (hφ : StrictMono φ) {m : Method} (hm : m.orderBased = true) (sense : Sense) (f : Vec ℝ d → ℝ) (samples : List (Vec ℝ d)) :
    utilities sort m sense (fun x => φ (f x)) samples = utilities sort m sense f samples := by
  unfold utilities
  rw [← rank_mono hm _ (orderOnly_mono h hφ _ (samples.map f)), List.map_map]
  rfl

theorem utilities_neg {sort : Sorter ℝ} (h : OrderOnly sort) (m : Method) (f : Vec ℝ d → ℝ) (samples : List (Vec ℝ d)) :
    utilities sort m .max (fun x => -f x) samples = utilities sort m .min f samples := by
  unfold utilities
  have := rank_neg (x := samples.map f) m (orderOnly_neg h true _)
  rw [List.map_map] at this
  exact this

/-! ### Runs -/

theorem xnesRun_congr {sort : Sorter ℝ} {m : Method} {sense sense' : Sense} (lrMu lrSigma : ℝ) {f f' : Vec ℝ d → ℝ} (h : ∀ xs, utilities sort m sense f xs = utilities sort m sense' f' xs) :
    ∀ (zss : List (List (Vec ℝ d))) (s : ExpGaussian.State d), xnesRun sort m sense lrMu lrSigma f s zss = xnesRun sort m sense' lrMu lrSigma f' s zss
  | [], s => rfl
  | zs :: rest, s => by
    simp only [xnesRun, xnesGen, h]
    congr 1
    funext s
    exact xnesRun_congr lrMu lrSigma h rest s

theorem pgpeRun_congr {sort : Sorter ℝ} {p p' : Pgpe} {f f' : Vec ℝ d → ℝ} (hp : p' = { p with sense := p'.sense }) (h : ∀ xs, utilities sort p.method p.sense f xs = utilities sort p.method p'.sense f' xs) :
    ∀ (zss : List (List (Vec ℝ d))) (s : Vec ℝ d × Vec ℝ d), pgpeRun sort p f s zss = pgpeRun sort p' f' s zss
  | [], s => rfl
  | zs :: rest, s => by
    have e : ∀ s, pgpeGen sort p f s zs = pgpeGen sort p' f' s zs := by
      intro s
      rw [hp]
      simp only [pgpeGen, h]
    simp only [pgpeRun, e]
    congr 1
    funext s
    exact pgpeRun_congr hp h rest s

theorem cemGen_mono {sort : Sorter ℝ} (h : OrderOnly sort) {φ : ℝ → ℝ} (hφ : StrictMono φ) (ratio : ℝ) (sense : Sense) (f : Vec ℝ d → ℝ) (s : Vec ℝ d × Vec ℝ d) (zs : List (Vec ℝ d)) :
    cemGen sort ratio sense (fun x => φ (f x)) s zs = cemGen sort ratio sense f s zs := by
  have e : ∀ xs : List (Vec ℝ d), sort true (Ranking.raw (decide (sense = .max)) (xs.map fun x => φ (f x))) = sort true (Ranking.raw (decide (sense = .max)) (xs.map f)) := by
    intro xs
    cases sense
    · have h1 := orderOnly_mono h hφ false (xs.map f)
      have h2 := orderOnly_neg h false ((xs.map f).map φ)
      have h3 := orderOnly_neg h false (xs.map f)
      simp only [List.map_map, Function.comp_def, Bool.not_false] at h1 h2 h3
      simp only [Ranking.raw, reduceCtorEq, decide_false, Bool.false_eq_true, if_false, List.map_map, Function.comp_def]
      rw [h2, h1, h3]
    · have h1 := orderOnly_mono h hφ true (xs.map f)
      simpa [Ranking.raw, Function.comp_def] using h1
  simp only [cemGen, Distribution.cemUpdate, Distribution.parenthoodGradients, Distribution.elites, e]

theorem cemGen_neg (sort : Sorter ℝ) (ratio : ℝ) (f : Vec ℝ d → ℝ) (s : Vec ℝ d × Vec ℝ d) (zs : List (Vec ℝ d)) : cemGen sort ratio .max (fun x => -f x) s zs = cemGen sort ratio .min f s zs := by
  simp only [cemGen, Distribution.cemUpdate, Ranking.raw]
  simp [Function.comp_def]

theorem ofFn_map (g : ℝ → ℝ) (v : Fin n → ℝ) : (List.ofFn fun i => g (v i)) = (List.ofFn v).map g := by
  rw [List.map_ofFn]
  rfl

theorem cmaEnv_mono {sort : Sorter ℝ} (h : OrderOnly sort) {φ : ℝ → ℝ} (hφ : StrictMono φ) (sense : Sense) (topk : CMAES.Topk n) (freq : Nat) (f : Vec ℝ d → ℝ) :
    cmaEnv sort sense topk freq (fun x => φ (f x)) = cmaEnv sort sense topk freq f := by
  funext zs
  simp only [cmaEnv, argsort, CMAES.Env.mk.injEq, true_and, and_true]
  funext xs
  rw [ofFn_map φ (fun i => f (xs i)), orderOnly_mono h hφ]

theorem cmaEnv_neg {sort : Sorter ℝ} (h : OrderOnly sort) (topk : CMAES.Topk n) (freq : Nat) (f : Vec ℝ d → ℝ) : cmaEnv sort .max topk freq (fun x => -f x) = cmaEnv sort .min topk freq f := by
  funext zs
  simp only [cmaEnv, argsort, CMAES.Env.mk.injEq, true_and, and_true]
  funext xs
  rw [ofFn_map (fun a => -a) (fun i => f (xs i))]
  exact orderOnly_neg h false _

/-- C115: XNES, SNES and PGPE with a ranking that uses the order only, CEM and CMA-ES do exactly the same after a strictly increasing transformation of the fitness function. -/
theorem C115_monotone {sort : Sorter ℝ} (h : OrderOnly sort) {φ : ℝ → ℝ} (hφ : StrictMono φ) (f : Vec ℝ d → ℝ) (sense : Sense) :
    (∀ m : Method, m.orderBased = true → ∀ lrMu lrSigma s zss, xnesRun sort m sense lrMu lrSigma (fun x => φ (f x)) s zss = xnesRun sort m sense lrMu lrSigma f s zss) ∧
    (∀ m : Method, m.orderBased = true → ∀ lrMu lrSigma s zss, snesRun sort m sense lrMu lrSigma (fun x => φ (f x)) s zss = snesRun sort m sense lrMu lrSigma f s zss) ∧
    (∀ p : Pgpe, p.method.orderBased = true → ∀ s zss, pgpeRun sort p (fun x => φ (f x)) s zss = pgpeRun sort p f s zss) ∧
    (∀ ratio s zss, cemRun sort ratio sense (fun x => φ (f x)) s zss = cemRun sort ratio sense f s zss) ∧
    (∀ chol n topk freq o s zss, cmaRun (n := n) chol sort sense topk freq o (fun x => φ (f x)) s zss = cmaRun chol sort sense topk freq o f s zss) ∧
    ∀ n topk freq o s zss, cmaSepRun (n := n) sort sense topk freq o (fun x => φ (f x)) s zss = cmaSepRun sort sense topk freq o f s zss := by
  refine ⟨?_, ?_, ?_, ?_, ?_, ?_⟩
  · intro m hm lrMu lrSigma s zss
    exact xnesRun_congr lrMu lrSigma (fun xs => utilities_mono h hφ hm sense f xs) zss s
  · intro m hm lrMu lrSigma s zss
    unfold snesRun
    congr 1
    funext s zs
    simp only [snesGen, utilities_mono h hφ hm]
  · intro p hp s zss
    exact pgpeRun_congr rfl (fun xs => utilities_mono h hφ hp p.sense f xs) zss s
  · intro ratio s zss
    unfold cemRun
    congr 1
    funext s zs
    exact cemGen_mono h hφ ratio sense f s zs
  · intro chol n topk freq o s zss
    simp only [cmaRun, cmaEnv_mono h hφ]
  · intro n topk freq o s zss
    simp only [cmaSepRun, cmaEnv_mono h hφ]

/-- C115: minimising `f` and maximising `-f` is the same search, for every algorithm and every ranking method. -/
theorem C115_senses {sort : Sorter ℝ} (h : OrderOnly sort) (f : Vec ℝ d → ℝ) :
    (∀ m lrMu lrSigma s zss, xnesRun sort m .max lrMu lrSigma (fun x => -f x) s zss = xnesRun sort m .min lrMu lrSigma f s zss) ∧
    (∀ m lrMu lrSigma s zss, snesRun sort m .max lrMu lrSigma (fun x => -f x) s zss = snesRun sort m .min lrMu lrSigma f s zss) ∧
    (∀ p : Pgpe, ∀ s zss, pgpeRun sort { p with sense := .max } (fun x => -f x) s zss = pgpeRun sort { p with sense := .min } f s zss) ∧
    (∀ ratio s zss, cemRun sort ratio .max (fun x => -f x) s zss = cemRun sort ratio .min f s zss) ∧
    (∀ chol n topk freq o s zss, cmaRun (n := n) chol sort .max topk freq o (fun x => -f x) s zss = cmaRun chol sort .min topk freq o f s zss) ∧
    ∀ n topk freq o s zss, cmaSepRun (n := n) sort .max topk freq o (fun x => -f x) s zss = cmaSepRun sort .min topk freq o f s zss := by
  refine ⟨?_, ?_, ?_, ?_, ?_, ?_⟩
  · intro m lrMu lrSigma s zss
    exact xnesRun_congr lrMu lrSigma (fun xs => utilities_neg h m f xs) zss s
  · intro m lrMu lrSigma s zss
    unfold snesRun
    congr 1
    funext s zs
    simp only [snesGen, utilities_neg h]
  · intro p s zss
    exact pgpeRun_congr rfl (fun xs => utilities_neg h p.method f xs) zss s
  · intro ratio s zss
    unfold cemRun
    congr 1
    funext s zs
    exact cemGen_neg sort ratio f s zs
  · intro chol n topk freq o s zss
    simp only [cmaRun, cmaEnv_neg h]
  · intro n topk freq o s zss
    simp only [cmaSepRun, cmaEnv_neg h]

/-! ### Offsets and scales of the fitness -/

theorem mean_affine (k c : ℝ) (x : List ℝ) (hx : x ≠ []) : Ranking.mean (x.map fun a => k * a + c) = k * Ranking.mean x + c := by
  have hs : (x.map fun a => k * a + c).sum = k * x.sum + x.length * c := by
    clear hx
    induction x with
    | nil => simp
    | cons a x ih => simp only [List.map_cons, List.sum_cons, ih, List.length_cons]; push_cast; ring
  have hl : (x.length : ℝ) ≠ 0 := by simpa using hx
  simp only [Ranking.mean, hs, List.length_map]
  field_simp

theorem center_shift (c : ℝ) (x : List ℝ) : (x.map fun a => a + c).map (fun w => w - Ranking.mean (x.map fun a => a + c)) = x.map fun w => w - Ranking.mean x := by
  by_cases hx : x = []
  · subst hx; rfl
  have := mean_affine 1 c x hx
  simp only [one_mul] at this
  rw [this, List.map_map]
  exact List.map_congr_left fun a _ => by simp

theorem normalized_affine {k : ℝ} (hk : 0 < k) (c : ℝ) (hib : Bool) (x : List ℝ) : Ranking.normalized hib (x.map fun a => k * a + c) = Ranking.normalized hib x := by
  have gen : ∀ (c : ℝ) (y : List ℝ), ((y.map fun a => k * a + c).map fun a => a - Ranking.mean (y.map fun a => k * a + c)).map (fun a => a / Real.sqrt (Ranking.variance (y.map fun a => k * a + c))) =
      (y.map fun a => a - Ranking.mean y).map (fun a => a / Real.sqrt (Ranking.variance y)) := by
    intro c y
    by_cases hy : y = []
    · subst hy; rfl
    have hm := mean_affine k c y hy
    have hv : Ranking.variance (y.map fun a => k * a + c) = k ^ 2 * Ranking.variance y := by
      simp only [Ranking.variance, hm, List.map_map, List.length_map]
      rw [← mul_div_assoc, ← List.sum_map_mul_left]
      congr 2
      exact List.map_congr_left fun a _ => by simp only [Function.comp_apply]; ring
    rw [hm, hv, Real.sqrt_mul (by positivity), Real.sqrt_sq hk.le, List.map_map, List.map_map, List.map_map]
    refine List.map_congr_left fun a _ => ?_
    simp only [Function.comp_apply]
    rw [show k * a + c - (k * Ranking.mean y + c) = k * (a - Ranking.mean y) by ring, mul_div_mul_left _ _ hk.ne']
  cases hib with
  | true => exact gen c x
  | false =>
    have := gen (-c) (x.map fun a => -a)
    simp only [List.map_map, Function.comp_def] at this
    simp only [Ranking.normalized, Bool.false_eq_true, if_false, List.map_map, Function.comp_def, neg_add, neg_mul_eq_mul_neg]
    simpa [Function.comp_def] using this

/-- C115: a constant offset of the fitness has no influence on XNES and PGPE, whatever the ranking method. With the ranking method `normalized`, neither has a positive factor, for XNES, PGPE and SNES. -/
theorem C115_offset {sort : Sorter ℝ} (h : OrderOnly sort) (f : Vec ℝ d → ℝ) (c : ℝ) (sense : Sense) :
    (∀ m lrMu lrSigma s zss, xnesRun sort m sense lrMu lrSigma (fun x => f x + c) s zss = xnesRun sort m sense lrMu lrSigma f s zss) ∧
    (∀ p : Pgpe, ∀ s zss, pgpeRun sort p (fun x => f x + c) s zss = pgpeRun sort p f s zss) ∧
    ∀ k : ℝ, 0 < k →
      (∀ lrMu lrSigma s zss, xnesRun sort .normalized sense lrMu lrSigma (fun x => k * f x + c) s zss = xnesRun sort .normalized sense lrMu lrSigma f s zss) ∧
      (∀ lrMu lrSigma s zss, snesRun sort .normalized sense lrMu lrSigma (fun x => k * f x + c) s zss = snesRun sort .normalized sense lrMu lrSigma f s zss) ∧
      ∀ p : Pgpe, p.method = .normalized → ∀ s zss, pgpeRun sort p (fun x => k * f x + c) s zss = pgpeRun sort p f s zss := by
  have hφ : StrictMono fun a : ℝ => a + c := fun a b hab => by simpa using hab
  have hnorm : ∀ k : ℝ, 0 < k → ∀ (sense : Sense) xs, utilities sort .normalized sense (fun x => k * f x + c) xs = utilities sort .normalized sense f xs := by
    intro k hk sense xs
    have := normalized_affine hk c (decide (sense = .max)) (xs.map f)
    rw [List.map_map] at this
    exact this
  have hnorm1 : ∀ (sense : Sense) xs, utilities sort .normalized sense (fun x => f x + c) xs = utilities sort .normalized sense f xs := by
    intro sense xs
    have := hnorm 1 one_pos sense xs
    simpa using this
  have hraw : ∀ (sense : Sense) xs, ∃ c', utilities sort .raw sense (fun x => f x + c) xs = (utilities sort .raw sense f xs).map fun a => a + c' := by
    intro sense xs
    cases sense with
    | max => exact ⟨c, by simp [utilities, rank, Ranking.raw, Function.comp_def]⟩
    | min => exact ⟨-c, by simp [utilities, rank, Ranking.raw, Function.comp_def, add_comm]⟩
  refine ⟨?_, ?_, ?_⟩
  · intro m lrMu lrSigma s zss
    by_cases hm : m.orderBased = true
    · exact xnesRun_congr lrMu lrSigma (fun xs => utilities_mono h hφ hm sense f xs) zss s
    · by_cases hn : m = .normalized
      · subst hn
        exact xnesRun_congr lrMu lrSigma (fun xs => hnorm1 sense xs) zss s
      · have hm : m = .raw := by cases m <;> simp_all [Method.orderBased]
        subst hm
        have e : ∀ s zs, xnesGen sort .raw sense lrMu lrSigma (fun x => f x + c) s zs = xnesGen sort .raw sense lrMu lrSigma f s zs := by
          intro s zs
          obtain ⟨c', hc⟩ := hraw sense (zs.map (ExpGaussian.toGlobal s))
          have := center_shift c' (utilities sort .raw sense f (zs.map (ExpGaussian.toGlobal s)))
          simp only [Ranking.mean] at this
          simp only [xnesGen, hc, ExpGaussian.gradients, Method.alreadyCentered, Bool.false_eq_true, if_false, this]
        induction zss generalizing s with
        | nil => rfl
        | cons zs zss ih => simp only [xnesRun, e, ih]
  · intro p s zss
    by_cases hm : p.method.orderBased = true
    · exact pgpeRun_congr rfl (fun xs => utilities_mono h hφ hm p.sense f xs) zss s
    · by_cases hn : p.method = .normalized
      · exact pgpeRun_congr rfl (fun xs => by rw [hn]; exact hnorm1 p.sense xs) zss s
      · have hm : p.method = .raw := by cases hp : p.method <;> simp_all [Method.orderBased]
        have e : ∀ s zs, pgpeGen sort p (fun x => f x + c) s zs = pgpeGen sort p f s zs := by
          intro s zs
          have hc : ∀ xs, Distribution.centerWeights false (utilities sort .raw p.sense (fun x => f x + c) xs) = Distribution.centerWeights false (utilities sort .raw p.sense f xs) := by
            intro xs
            obtain ⟨c', hc⟩ := hraw p.sense xs
            rw [hc]
            exact center_shift c' _
          simp only [pgpeGen, hm, Method.alreadyCentered, Distribution.symmetricGradients, Distribution.plainGradients, hc]
        induction zss generalizing s with
        | nil => rfl
        | cons zs zss ih => simp only [pgpeRun, e, ih]
  · intro k hk
    refine ⟨?_, ?_, ?_⟩
    · intro lrMu lrSigma s zss
      exact xnesRun_congr lrMu lrSigma (fun xs => hnorm k hk sense xs) zss s
    · intro lrMu lrSigma s zss
      unfold snesRun
      congr 1
      funext s zs
      simp only [snesGen, hnorm k hk]
    · intro p hp s zss
      exact pgpeRun_congr rfl (fun xs => by rw [hp]; exact hnorm k hk p.sense xs) zss s

/-! ### Changes of coordinates -/

theorem utilities_map (sort : Sorter ℝ) (m : Method) (sense : Sense) (f f' : Vec ℝ d → ℝ) (T : Vec ℝ d → Vec ℝ d) (hf : ∀ x, f' (T x) = f x) (xs : List (Vec ℝ d)) :
    utilities sort m sense f' (xs.map T) = utilities sort m sense f xs := by
  simp only [utilities, List.map_map, Function.comp_def, hf]

/-- The state of XNES in the coordinates `B x + b`. -/
def affine (B Binv : Matrix (Fin d) (Fin d) ℝ) (b : Vec ℝ d) (s : ExpGaussian.State d) : ExpGaussian.State d := ⟨B.mulVec s.mu + b, B * s.A, s.Ainv * Binv⟩

theorem affine_global (B Binv : Matrix (Fin d) (Fin d) ℝ) (b : Vec ℝ d) (s : ExpGaussian.State d) (z : Vec ℝ d) :
    ExpGaussian.toGlobal (affine B Binv b s) z = B.mulVec (ExpGaussian.toGlobal s z) + b := by
  simp only [ExpGaussian.toGlobal, affine, Matrix.mulVec_add, Matrix.mulVec_mulVec]
  abel

theorem affine_local (B Binv : Matrix (Fin d) (Fin d) ℝ) (hB : B * Binv = 1) (b : Vec ℝ d) (s : ExpGaussian.State d) (x : Vec ℝ d) :
    ExpGaussian.toLocal (affine B Binv b s) (B.mulVec x + b) = ExpGaussian.toLocal s x := by
  have hB' : Binv * B = 1 := mul_eq_one_comm.1 hB
  simp only [ExpGaussian.toLocal, affine]
  rw [show B.mulVec x + b - (B.mulVec s.mu + b) = B.mulVec (x - s.mu) by rw [Matrix.mulVec_sub]; abel, Matrix.mulVec_mulVec, Matrix.mul_assoc, hB', Matrix.mul_one]

theorem xnesGen_affine (sort : Sorter ℝ) (m : Method) (sense : Sense) (lrMu lrSigma : ℝ) (B Binv : Matrix (Fin d) (Fin d) ℝ) (hB : B * Binv = 1) (b : Vec ℝ d) (f f' : Vec ℝ d → ℝ)
    (hf : ∀ x, f' (B.mulVec x + b) = f x) (s : ExpGaussian.State d) (zs : List (Vec ℝ d)) :
    xnesGen sort m sense lrMu lrSigma f' (affine B Binv b s) zs = (xnesGen sort m sense lrMu lrSigma f s zs).map (affine B Binv b) := by
  have e1 : zs.map (ExpGaussian.toGlobal (affine B Binv b s)) = (zs.map (ExpGaussian.toGlobal s)).map fun x => B.mulVec x + b := by
    rw [List.map_map]
    exact List.map_congr_left fun z _ => affine_global B Binv b s z
  have e2 : ∀ c xs ws, ExpGaussian.gradients (affine B Binv b s) c (xs.map fun x => B.mulVec x + b) ws = ExpGaussian.gradients s c xs ws := by
    intro c xs ws
    have : (xs.map fun x => B.mulVec x + b).map (ExpGaussian.toLocal (affine B Binv b s)) = xs.map (ExpGaussian.toLocal s) := by
      rw [List.map_map]
      exact List.map_congr_left fun x _ => affine_local B Binv hB b s x
    simp only [ExpGaussian.gradients, this]
  simp only [xnesGen, e1, e2, utilities_map sort m sense f f' _ hf, ExpGaussian.update, Except.map, Except.ok.injEq]
  simp only [affine, Matrix.mulVec_add, Matrix.mulVec_mulVec, Matrix.mul_assoc, ExpGaussian.State.mk.injEq, and_true]
  abel

/-- C115: XNES does the same in any affine coordinates: with the draws fixed, the search for `f` transformed by `B x + b` is the transformed search, from corresponding states. -/
theorem C115_xnes_affine (sort : Sorter ℝ) (m : Method) (sense : Sense) (lrMu lrSigma : ℝ) (B Binv : Matrix (Fin d) (Fin d) ℝ) (hB : B * Binv = 1) (b : Vec ℝ d) (f f' : Vec ℝ d → ℝ)
    (hf : ∀ x, f' (B.mulVec x + b) = f x) :
    ∀ (zss : List (List (Vec ℝ d))) (s : ExpGaussian.State d),
      xnesRun sort m sense lrMu lrSigma f' ⟨B.mulVec s.mu + b, B * s.A, s.Ainv * Binv⟩ zss = (xnesRun sort m sense lrMu lrSigma f s zss).map fun s => ⟨B.mulVec s.mu + b, B * s.A, s.Ainv * Binv⟩
  | [], s => rfl
  | zs :: rest, s => by
    have h := xnesGen_affine sort m sense lrMu lrSigma B Binv hB b f f' hf s zs
    unfold affine at h
    simp only [xnesRun, h]
    cases xnesGen sort m sense lrMu lrSigma f s zs with
    | error e => rfl
    | ok s' => exact C115_xnes_affine sort m sense lrMu lrSigma B Binv hB b f f' hf rest s'

/-! #### Separable distributions -/

/-- The center and standard deviations in the coordinates `c x + b` (componentwise). -/
def scaled (c b : Vec ℝ d) (s : Vec ℝ d × Vec ℝ d) : Vec ℝ d × Vec ℝ d := (fun j => c j * s.1 j + b j, fun j => c j * s.2 j)

/-- The coordinates `c x + b`. -/
def coords (c b x : Vec ℝ d) : Vec ℝ d := fun j => c j * x j + b j

theorem sample_scaled (zs : List (Vec ℝ d)) (c b : Vec ℝ d) (s : Vec ℝ d × Vec ℝ d) : sample zs (scaled c b s) = (sample zs s).map (coords c b) := by
  simp only [sample, Distribution.makeGaussian, List.map_map]
  refine List.map_congr_left fun i _ => ?_
  funext j
  simp only [Function.comp_def, scaled, coords]
  ring

theorem sampleSymmetric_scaled (k : Nat) (noise : Nat → Vec ℝ d) (c b : Vec ℝ d) (s : Vec ℝ d × Vec ℝ d) :
    Distribution.makeGaussianSymmetric k noise (scaled c b s).1 (scaled c b s).2 = (Distribution.makeGaussianSymmetric k noise s.1 s.2).map (List.map (coords c b)) := by
  simp only [Distribution.makeGaussianSymmetric]
  split
  · rfl
  · simp only [Except.map, List.map_map, Except.ok.injEq]
    refine List.map_congr_left fun i _ => ?_
    funext j
    simp only [Function.comp_def, scaled, coords]
    ring

theorem weightedSum_scale (c : Vec ℝ d) (ws : List ℝ) (rows : List (Vec ℝ d)) : Distribution.weightedSum ws (rows.map fun z j => c j * z j) = fun j => c j * Distribution.weightedSum ws rows j := by
  funext j
  simp only [Distribution.weightedSum]
  induction ws generalizing rows with
  | nil => simp
  | cons w ws ih =>
    cases rows with
    | nil => simp
    | cons z rows =>
      simp only [List.map_cons, List.zipWith_cons_cons, List.sum_cons, ih, mul_add]
      ring

theorem noises_scaled (c b mu : Vec ℝ d) (xs : List (Vec ℝ d)) : ((xs.map (coords c b)).map fun x j => x j - (c j * mu j + b j)) = (xs.map fun x j => x j - mu j).map fun z j => c j * z j := by
  simp only [List.map_map]
  refine List.map_congr_left fun x _ => ?_
  funext j
  simp only [Function.comp_def, coords]
  ring

theorem evens_map {α β : Type} (g : α → β) : ∀ l : List α, Distribution.evens (l.map g) = (Distribution.evens l).map g
  | [] => rfl
  | [_] => rfl
  | _ :: _ :: t => by simp [Distribution.evens, evens_map g t]

theorem divideGrad_scale (c : Vec ℝ d) (opt : Option Distribution.DivideBy) (g : Vec ℝ d) (ws : List ℝ) :
    Distribution.divideGrad opt (fun j => c j * g j) ws = fun j => c j * Distribution.divideGrad opt g ws j := by
  rcases opt with _ | (_ | _ | _) <;> simp only [Distribution.divideGrad] <;> funext j <;> ring

theorem sigmaTerm_scale (c sigma : Vec ℝ d) (hc : ∀ j, 0 < c j) (zs : List (Vec ℝ d)) :
    ((zs.map fun z j => c j * z j).map fun z j => (z j ^ 2 - (c j * sigma j) ^ 2) / (c j * sigma j)) = (zs.map fun z j => (z j ^ 2 - sigma j ^ 2) / sigma j).map fun z j => c j * z j := by
  simp only [List.map_map]
  refine List.map_congr_left fun z _ => ?_
  funext j
  simp only [Function.comp_def]
  have := (hc j).ne'
  by_cases hs : sigma j = 0
  · simp [hs]
  · field_simp

theorem snesGen_scaled (sort : Sorter ℝ) (m : Method) (sense : Sense) (lrMu lrSigma : ℝ) (c b : Vec ℝ d) (hc : ∀ j, 0 < c j) (f f' : Vec ℝ d → ℝ) (hf : ∀ x, f' (fun j => c j * x j + b j) = f x)
    (s : Vec ℝ d × Vec ℝ d) (zs : List (Vec ℝ d)) : snesGen sort m sense lrMu lrSigma f' (scaled c b s) zs = scaled c b (snesGen sort m sense lrMu lrSigma f s zs) := by
  have h3 : ((sample zs s).map (coords c b)).map (fun x j => x j - (scaled c b s).1 j) = ((sample zs s).map fun x j => x j - s.1 j).map fun z j => c j * z j := noises_scaled c b s.1 _
  have h4 : (((sample zs s).map fun x j => x j - s.1 j).map fun z j => c j * z j).map (fun z j => z j / (scaled c b s).2 j) = ((sample zs s).map fun x j => x j - s.1 j).map fun z j => z j / s.2 j := by
    rw [List.map_map]
    refine List.map_congr_left fun z _ => ?_
    funext j
    simp only [Function.comp_def, scaled]
    exact mul_div_mul_left _ _ (hc j).ne'
  simp only [snesGen, sample_scaled, utilities_map sort m sense f f' (coords c b) hf, Distribution.expGradients, h3, h4, weightedSum_scale]
  simp only [scaled, Prod.mk.injEq]
  constructor <;> funext j
  · ring
  · simp only [ExpGaussian.snesUpdateSigma]
    ring

theorem pgpeGen_scaled (sort : Sorter ℝ) (p : Pgpe) (c b : Vec ℝ d) (hc : ∀ j, 0 < c j) (f f' : Vec ℝ d → ℝ) (hf : ∀ x, f' (fun j => c j * x j + b j) = f x) (s : Vec ℝ d × Vec ℝ d)
    (zs : List (Vec ℝ d)) : pgpeGen sort p f' (scaled c b s) zs = (pgpeGen sort p f s zs).map (scaled c b) := by
  have hupd : ∀ g : Distribution.Grads ℝ d, Distribution.updateSeparable p.lrMu p.lrSigma (scaled c b s).1 (scaled c b s).2 ⟨fun j => c j * g.mu j, fun j => c j * g.sigma j⟩ =
      scaled c b (Distribution.updateSeparable p.lrMu p.lrSigma s.1 s.2 g) := by
    intro g
    simp only [Distribution.updateSeparable, scaled, Prod.mk.injEq]
    constructor <;> funext j <;> ring
  have hplain : ∀ xs ws, Distribution.plainGradients p.divMu p.divSigma (scaled c b s).1 (scaled c b s).2 p.method.alreadyCentered (xs.map (coords c b)) ws =
      ⟨fun j => c j * (Distribution.plainGradients p.divMu p.divSigma s.1 s.2 p.method.alreadyCentered xs ws).mu j,
        fun j => c j * (Distribution.plainGradients p.divMu p.divSigma s.1 s.2 p.method.alreadyCentered xs ws).sigma j⟩ := by
    intro xs ws
    have h3 : (xs.map (coords c b)).map (fun x j => x j - (scaled c b s).1 j) = (xs.map fun x j => x j - s.1 j).map fun z j => c j * z j := noises_scaled c b s.1 _
    have h4 := sigmaTerm_scale c s.2 hc (xs.map fun x j => x j - s.1 j)
    have h4' : ((xs.map fun x j => x j - s.1 j).map fun z j => c j * z j).map (fun z j => (z j ^ 2 - (scaled c b s).2 j ^ 2) / (scaled c b s).2 j) = _ := h4
    simp only [Distribution.plainGradients, h3, h4', weightedSum_scale, divideGrad_scale]
  have hsym : ∀ xs ws, Distribution.symmetricGradients p.divMu p.divSigma (scaled c b s).1 (scaled c b s).2 p.method.alreadyCentered (xs.map (coords c b)) ws =
      ⟨fun j => c j * (Distribution.symmetricGradients p.divMu p.divSigma s.1 s.2 p.method.alreadyCentered xs ws).mu j,
        fun j => c j * (Distribution.symmetricGradients p.divMu p.divSigma s.1 s.2 p.method.alreadyCentered xs ws).sigma j⟩ := by
    intro xs ws
    have h3 : ((Distribution.evens xs).map (coords c b)).map (fun x j => x j - (scaled c b s).1 j) = ((Distribution.evens xs).map fun x j => x j - s.1 j).map fun z j => c j * z j := noises_scaled c b s.1 _
    have h4 := sigmaTerm_scale c s.2 hc ((Distribution.evens xs).map fun x j => x j - s.1 j)
    have h4' : (((Distribution.evens xs).map fun x j => x j - s.1 j).map fun z j => c j * z j).map (fun z j => (z j ^ 2 - (scaled c b s).2 j ^ 2) / (scaled c b s).2 j) = _ := h4
    simp only [Distribution.symmetricGradients, evens_map, h3, h4', weightedSum_scale, divideGrad_scale]
  simp only [pgpeGen]
  split
  · rw [sampleSymmetric_scaled]
    cases Distribution.makeGaussianSymmetric (2 * zs.length) (fun i => zs.getD i 0) s.1 s.2 with
    | error e => rfl
    | ok xs =>
      simp only [Except.map, Except.bind, utilities_map sort p.method p.sense f f' (coords c b) hf, hsym, hupd]
  · simp only [sample_scaled, utilities_map sort p.method p.sense f f' (coords c b) hf, hplain, hupd, Except.map]

theorem gather_map {α β : Type} (g : α → β) (xs : List α) (idx : List Nat) : Distribution.gather (xs.map g) idx = (Distribution.gather xs idx).map g := by
  simp only [Distribution.gather, List.map_filterMap, List.getElem?_map]

theorem meanRows_scaled (c b : Vec ℝ d) (rows : List (Vec ℝ d)) (h : rows ≠ []) (j : Fin d) : Distribution.meanRows (rows.map (coords c b)) j = c j * Distribution.meanRows rows j + b j := by
  have hl : (rows.length : ℝ) ≠ 0 := by exact_mod_cast (List.length_pos_iff.2 h).ne'
  have e : ∀ l : List (Vec ℝ d), (l.map fun x => c j * x j + b j).sum = c j * (l.map fun x => x j).sum + l.length * b j := by
    intro l
    induction l with
    | nil => simp
    | cons x l ih =>
      simp only [List.map_cons, List.sum_cons, ih, List.length_cons]
      push_cast
      ring
  simp only [Distribution.meanRows, List.map_map, Function.comp_def, coords, List.length_map, e]
  field_simp

theorem stdRows_scaled (c b : Vec ℝ d) (hc : ∀ j, 0 < c j) (rows : List (Vec ℝ d)) (h : rows ≠ []) (j : Fin d) : Distribution.stdRows (rows.map (coords c b)) j = c j * Distribution.stdRows rows j := by
  have e : ∀ l : List (Vec ℝ d), ∀ m : ℝ, (l.map fun x => (c j * x j + b j - (c j * m + b j)) ^ 2).sum = c j ^ 2 * (l.map fun x => (x j - m) ^ 2).sum := by
    intro l m
    induction l with
    | nil => simp
    | cons x l ih =>
      simp only [List.map_cons, List.sum_cons, ih]
      ring
  simp only [Distribution.stdRows, List.map_map, Function.comp_def, meanRows_scaled c b rows h, List.length_map]
  have e' := e rows (Distribution.meanRows rows j)
  simp only [coords]
  rw [e', mul_div_assoc, Real.sqrt_mul (sq_nonneg _), Real.sqrt_sq (hc j).le]

theorem cemGen_scaled (sort : Sorter ℝ) (hs : SorterSpec sort) (ratio : ℝ) (sense : Sense) (c b : Vec ℝ d) (hc : ∀ j, 0 < c j) (f f' : Vec ℝ d → ℝ) (hf : ∀ x, f' (fun j => c j * x j + b j) = f x)
    (s : Vec ℝ d × Vec ℝ d) (zs : List (Vec ℝ d)) (he : 1 ≤ zs.length * ratio) : cemGen sort ratio sense f' (scaled c b s) zs = scaled c b (cemGen sort ratio sense f s zs) := by
  have hfit : ((sample zs s).map (coords c b)).map f' = (sample zs s).map f := by
    rw [List.map_map]
    exact List.map_congr_left fun x _ => hf x
  have hlen : (sample zs s).length = zs.length := by simp [sample, Distribution.makeGaussian]
  have hel : ∀ ws, Distribution.elites sort ratio ((sample zs s).map (coords c b)) ws = (Distribution.elites sort ratio (sample zs s) ws).map (coords c b) := by
    intro ws
    simp only [Distribution.elites, gather_map, List.length_map]
  have hne : Distribution.elites sort ratio (sample zs s) (Ranking.raw (decide (sense = .max)) ((sample zs s).map f)) ≠ [] := by
    intro h0
    have hw : (Ranking.raw (decide (sense = .max)) ((sample zs s).map f)).length = zs.length := by
      unfold Ranking.raw
      split <;> simp [hlen]
    have hperm := (hs (Ranking.raw (decide (sense = .max)) ((sample zs s).map f))).2.1
    have hk : 1 ≤ ⌊((sample zs s).length : ℝ) * ratio⌋.toNat := by
      rw [hlen]
      have : (1 : ℤ) ≤ ⌊(zs.length : ℝ) * ratio⌋ := Int.le_floor.2 (by simpa using he)
      omega
    have hz : 0 < zs.length := by
      by_contra hc0
      have : zs.length = 0 := by omega
      rw [this] at he
      norm_num at he
    simp only [Distribution.elites, Distribution.gather] at h0
    rw [List.filterMap_eq_nil_iff] at h0
    have hsl : (sort true (Ranking.raw (decide (sense = .max)) ((sample zs s).map f))).length = zs.length := by rw [hperm.length_eq, List.length_range, hw]
    have hmem : (sort true (Ranking.raw (decide (sense = .max)) ((sample zs s).map f)))[0]'(by omega) ∈ (sort true (Ranking.raw (decide (sense = .max)) ((sample zs s).map f))).take ⌊((sample zs s).length : ℝ) * ratio⌋.toNat := by
      rw [List.mem_take_iff_getElem]
      exact ⟨0, by omega, rfl⟩
    have := h0 _ hmem
    rw [List.getElem?_eq_none_iff, hlen] at this
    have hlt := List.mem_range.1 (hperm.mem_iff.1 (List.getElem_mem (l := sort true (Ranking.raw (decide (sense = .max)) ((sample zs s).map f))) (n := 0) (by omega)))
    omega
  simp only [cemGen, sample_scaled, hfit, Distribution.cemUpdate, Distribution.parenthoodGradients, hel, Distribution.updateSeparable]
  simp only [meanRows_scaled c b _ hne, stdRows_scaled c b hc _ hne, scaled, Prod.mk.injEq]
  constructor <;> funext j <;> ring

/-- C115: SNES, PGPE (plain or symmetric, with any divisors) and CEM do the same after a shift of the origin and a change of the unit of each variable. -/
theorem C115_separable_coordinates (sort : Sorter ℝ) (hs : SorterSpec sort) (sense : Sense) (c b : Vec ℝ d) (hc : ∀ j, 0 < c j) (f f' : Vec ℝ d → ℝ) (hf : ∀ x, f' (fun j => c j * x j + b j) = f x)
    (mu sigma : Vec ℝ d) (zss : List (List (Vec ℝ d))) :
    (∀ m lrMu lrSigma, snesRun sort m sense lrMu lrSigma f' (fun j => c j * mu j + b j, fun j => c j * sigma j) zss =
      (let r := snesRun sort m sense lrMu lrSigma f (mu, sigma) zss; (fun j => c j * r.1 j + b j, fun j => c j * r.2 j))) ∧
    (∀ p, pgpeRun sort p f' (fun j => c j * mu j + b j, fun j => c j * sigma j) zss =
      (pgpeRun sort p f (mu, sigma) zss).map fun r => (fun j => c j * r.1 j + b j, fun j => c j * r.2 j)) ∧
    ∀ ratio : ℝ, (∀ zs ∈ zss, 1 ≤ (zs.length : ℝ) * ratio) → cemRun sort ratio sense f' (fun j => c j * mu j + b j, fun j => c j * sigma j) zss =
      (let r := cemRun sort ratio sense f (mu, sigma) zss; (fun j => c j * r.1 j + b j, fun j => c j * r.2 j)) := by
  refine ⟨?_, ?_, ?_⟩
  · intro m lrMu lrSigma
    have : ∀ s, snesRun sort m sense lrMu lrSigma f' (scaled c b s) zss = scaled c b (snesRun sort m sense lrMu lrSigma f s zss) := by
      unfold snesRun
      induction zss with
      | nil => exact fun s => rfl
      | cons zs rest ih =>
        intro s
        simp only [List.foldl_cons, snesGen_scaled sort m sense lrMu lrSigma c b hc f f' hf, ih]
    exact this (mu, sigma)
  · intro p
    have : ∀ s, pgpeRun sort p f' (scaled c b s) zss = (pgpeRun sort p f s zss).map (scaled c b) := by
      induction zss with
      | nil => exact fun s => rfl
      | cons zs rest ih =>
        intro s
        simp only [pgpeRun, pgpeGen_scaled sort p c b hc f f' hf]
        cases pgpeGen sort p f s zs with
        | error e => rfl
        | ok s' => exact ih s'
    exact this (mu, sigma)
  · intro ratio he
    have : ∀ s, cemRun sort ratio sense f' (scaled c b s) zss = scaled c b (cemRun sort ratio sense f s zss) := by
      unfold cemRun
      induction zss with
      | nil => exact fun s => rfl
      | cons zs rest ih =>
        intro s
        simp only [List.foldl_cons]
        rw [cemGen_scaled sort hs ratio sense c b hc f f' hf s zs (he zs List.mem_cons_self), ih fun z hz => he z (List.mem_cons_of_mem _ hz)]
    exact this (mu, sigma)

/-! #### CMA-ES -/

/-- A lower triangular matrix with a positive diagonal. -/
def LowerPos (L : Matrix (Fin d) (Fin d) ℝ) : Prop := (∀ i j, i < j → L i j = 0) ∧ ∀ i, 0 < L i i

/-- `torch.linalg.cholesky`: the lower triangular factor with a positive diagonal, exactly for positive definite matrices. -/
def CholeskySpec (chol : Matrix (Fin d) (Fin d) ℝ → Option (Matrix (Fin d) (Fin d) ℝ)) : Prop := CMAES.Spec.CholSpec chol ∧ ∀ C A, chol C = some A → LowerPos A

theorem LowerPos.mul {L M : Matrix (Fin d) (Fin d) ℝ} (hL : LowerPos L) (hM : LowerPos M) : LowerPos (L * M) := by
  constructor
  · intro i j hij
    rw [Matrix.mul_apply]
    refine Finset.sum_eq_zero fun k _ => ?_
    by_cases hik : i < k
    · rw [hL.1 i k hik, zero_mul]
    · rw [hM.1 k j (lt_of_le_of_lt (not_lt.1 hik) hij), mul_zero]
  · intro i
    rw [Matrix.mul_apply, Finset.sum_eq_single i]
    · exact mul_pos (hL.2 i) (hM.2 i)
    · intro k _ hk
      rcases lt_or_gt_of_ne hk with h | h
      · rw [hM.1 k i h, mul_zero]
      · rw [hL.1 i k h, zero_mul]
    · simp

/-- The Cholesky factor is unique. -/
theorem cholesky_unique {L M : Matrix (Fin d) (Fin d) ℝ} (hL : LowerPos L) (hM : LowerPos M) (h : L * Lᵀ = M * Mᵀ) : L = M := by
  have hent : ∀ i j, ∑ k, L i k * L j k = ∑ k, M i k * M j k := by
    intro i j
    have := congrFun (congrFun h i) j
    simpa [Matrix.mul_apply] using this
  have key : ∀ j : ℕ, ∀ hj : j < d, ∀ i, L i ⟨j, hj⟩ = M i ⟨j, hj⟩ := by
    intro j
    induction j using Nat.strong_induction_on with
    | _ j ih =>
      intro hj i
      have hsplit : ∀ (N : Matrix (Fin d) (Fin d) ℝ), LowerPos N → ∀ a : Fin d, ∑ k, N a k * N ⟨j, hj⟩ k = (∑ k ∈ Finset.univ.filter (· < (⟨j, hj⟩ : Fin d)), N a k * N ⟨j, hj⟩ k) + N a ⟨j, hj⟩ * N ⟨j, hj⟩ ⟨j, hj⟩ := by
        intro N hN a
        rw [← Finset.sum_filter_add_sum_filter_not Finset.univ (· < (⟨j, hj⟩ : Fin d))]
        congr 1
        rw [Finset.sum_eq_single (⟨j, hj⟩ : Fin d)]
        · intro k hk hne
          have : (⟨j, hj⟩ : Fin d) < k := lt_of_le_of_ne (not_lt.1 (Finset.mem_filter.1 hk).2) (Ne.symm hne)
          rw [hN.1 _ _ this, mul_zero]
        · intro hc
          exact absurd (Finset.mem_filter.2 ⟨Finset.mem_univ (⟨j, hj⟩ : Fin d), lt_irrefl (⟨j, hj⟩ : Fin d)⟩) hc
      have hlow : ∀ a : Fin d, ∑ k ∈ Finset.univ.filter (· < (⟨j, hj⟩ : Fin d)), L a k * L ⟨j, hj⟩ k = ∑ k ∈ Finset.univ.filter (· < (⟨j, hj⟩ : Fin d)), M a k * M ⟨j, hj⟩ k := by
        intro a
        refine Finset.sum_congr rfl fun k hk => ?_
        have hk : k < (⟨j, hj⟩ : Fin d) := (Finset.mem_filter.1 hk).2
        rw [ih k.1 hk k.2 a, ih k.1 hk k.2 ⟨j, hj⟩]
      have heq : ∀ a : Fin d, L a ⟨j, hj⟩ * L ⟨j, hj⟩ ⟨j, hj⟩ = M a ⟨j, hj⟩ * M ⟨j, hj⟩ ⟨j, hj⟩ := by
        intro a
        have := hent a ⟨j, hj⟩
        rw [hsplit L hL, hsplit M hM, hlow] at this
        linarith
      have hd : L ⟨j, hj⟩ ⟨j, hj⟩ = M ⟨j, hj⟩ ⟨j, hj⟩ := by
        have h1 := heq ⟨j, hj⟩
        exact (mul_self_inj (hL.2 _).le (hM.2 _).le).1 h1
      have := heq i
      rw [hd] at this
      exact mul_right_cancel₀ (hM.2 _).ne' this
  ext i j
  exact key j.1 j.2 i

/-- The Cholesky factorisation exists. -/
theorem cholesky_exists : ∀ {d : Nat} (C : Matrix (Fin d) (Fin d) ℝ), CMAES.Spec.IsPD C → ∃ L, LowerPos L ∧ ∀ a b, C a b = ∑ k, L a k * L b k
  | 0, C, _ => ⟨C, ⟨fun i => i.elim0, fun i => i.elim0⟩, fun i => i.elim0⟩
  | d + 1, C, h => by
    obtain ⟨hsym, hpos⟩ := h
    have ha : 0 < C 0 0 := by
      have := hpos (Pi.single 0 1) (fun h0 => by simpa using congrFun h0 0)
      simpa [CMAES.Spec.quad, Fin.sum_univ_succ, Fin.succ_ne_zero] using this
    let D : Matrix (Fin d) (Fin d) ℝ := fun i j => C i.succ j.succ - C i.succ 0 * C j.succ 0 / C 0 0
    have hD : CMAES.Spec.IsPD D := by
      refine ⟨fun i j => ?_, fun v hv => ?_⟩
      · simp only [D, hsym i.succ j.succ]
        ring
      · let t : ℝ := -(∑ i, C i.succ 0 * v i) / C 0 0
        have hne : (Fin.cons t v : Fin (d + 1) → ℝ) ≠ 0 := by
          intro h0
          apply hv
          funext i
          simpa using congrFun h0 i.succ
        have h1 := hpos (Fin.cons t v) hne
        have hrow : ∑ j : Fin d, t * C 0 j.succ * v j = t * ∑ i, C i.succ 0 * v i := by
          rw [Finset.mul_sum]
          exact Finset.sum_congr rfl fun j _ => by rw [hsym 0 j.succ]; ring
        have hcol : ∑ i : Fin d, v i * C i.succ 0 * t = t * ∑ i, C i.succ 0 * v i := by
          rw [Finset.mul_sum]
          exact Finset.sum_congr rfl fun j _ => by ring
        have hq : CMAES.Spec.quad C (Fin.cons t v) = t * C 0 0 * t + t * (∑ i, C i.succ 0 * v i) + t * (∑ i, C i.succ 0 * v i) + ∑ i, ∑ j : Fin d, v i * C i.succ j.succ * v j := by
          simp only [CMAES.Spec.quad, Fin.sum_univ_succ, Fin.cons_zero, Fin.cons_succ, Finset.sum_add_distrib, hrow, hcol]
          ring
        have hqD : CMAES.Spec.quad D v = (∑ i, ∑ j : Fin d, v i * C i.succ j.succ * v j) - (∑ i, C i.succ 0 * v i) ^ 2 / C 0 0 := by
          have : ∀ i j : Fin d, v i * D i j * v j = v i * C i.succ j.succ * v j - (C i.succ 0 * v i) * (C j.succ 0 * v j) / C 0 0 := fun i j => by simp only [D]; ring
          simp only [CMAES.Spec.quad, this, Finset.sum_sub_distrib, ← Finset.sum_div, ← Finset.mul_sum, ← Finset.sum_mul]
          ring
        rw [hqD]
        rw [hq] at h1
        have ht : t * C 0 0 = -∑ i, C i.succ 0 * v i := by simp only [t]; field_simp
        have e2 : (∑ i, C i.succ 0 * v i) ^ 2 / C 0 0 = -(t * ∑ i, C i.succ 0 * v i) := by simp only [t]; ring
        rw [e2]
        rw [ht] at h1
        linarith
    obtain ⟨L', hL', hLD⟩ := cholesky_exists D hD
    let L : Matrix (Fin (d + 1)) (Fin (d + 1)) ℝ := Fin.cons (Fin.cons (Real.sqrt (C 0 0)) 0) fun i => Fin.cons (C i.succ 0 / Real.sqrt (C 0 0)) (L' i)
    have hs := Real.sqrt_pos.2 ha
    have hss := Real.mul_self_sqrt ha.le
    refine ⟨L, ⟨?_, ?_⟩, ?_⟩
    · intro i j hij
      induction i using Fin.cases with
      | zero =>
        induction j using Fin.cases with
        | zero => exact absurd hij (lt_irrefl _)
        | succ j => simp [L]
      | succ i =>
        induction j using Fin.cases with
        | zero => exact absurd hij (Fin.not_lt_zero _)
        | succ j => simpa [L] using hL'.1 i j (Fin.succ_lt_succ_iff.1 hij)
    · intro i
      refine Fin.cases ?_ (fun i => ?_) i
      · simpa [L] using hs
      · simpa [L] using hL'.2 i
    · intro a b
      induction a using Fin.cases with
      | zero =>
        induction b using Fin.cases with
        | zero => simp [L, Fin.sum_univ_succ, hss]
        | succ b =>
          simp only [L, Fin.sum_univ_succ, Fin.cons_zero, Fin.cons_succ, Pi.zero_apply, zero_mul, Finset.sum_const_zero, add_zero, hsym 0 b.succ]
          field_simp
      | succ a =>
        induction b using Fin.cases with
        | zero =>
          simp only [L, Fin.sum_univ_succ, Fin.cons_zero, Fin.cons_succ, Pi.zero_apply, mul_zero, Finset.sum_const_zero, add_zero]
          field_simp
        | succ b =>
          have := hLD a b
          simp only [L, Fin.sum_univ_succ, Fin.cons_zero, Fin.cons_succ, ← this, D]
          have e : C a.succ 0 / Real.sqrt (C 0 0) * (C b.succ 0 / Real.sqrt (C 0 0)) = C a.succ 0 * C b.succ 0 / C 0 0 := by
            rw [div_mul_div_comm, hss]
          rw [e]
          ring

open Classical in
/-- The Cholesky factorisation. -/
noncomputable def cholesky (C : Matrix (Fin d) (Fin d) ℝ) : Option (Matrix (Fin d) (Fin d) ℝ) := if h : CMAES.Spec.IsPD C then some (cholesky_exists C h).choose else none

/-- A function with the properties assumed of `torch.linalg.cholesky` exists. -/
theorem cholesky_spec : CholeskySpec (cholesky (d := d)) := by
  refine ⟨⟨fun C h => ⟨_, dif_pos h⟩, fun C A h => ?_⟩, fun C A h => ?_⟩
  · unfold cholesky at h
    split at h
    · rename_i hC
      cases h
      exact ⟨hC, (cholesky_exists C hC).choose_spec.2⟩
    · cases h
  · unfold cholesky at h
    split at h
    · rename_i hC
      cases h
      exact (cholesky_exists C hC).choose_spec.1
    · cases h

theorem LowerPos.isUnit {B : Matrix (Fin d) (Fin d) ℝ} (hB : LowerPos B) : IsUnit B := by
  rw [Matrix.isUnit_iff_isUnit_det, Matrix.det_of_isLowerTriangular B (fun i j hij => hB.1 i j hij)]
  exact (Finset.prod_pos fun i _ => hB.2 i).ne'.isUnit

theorem isPD_congr {B : Matrix (Fin d) (Fin d) ℝ} (hB : LowerPos B) (C : Matrix (Fin d) (Fin d) ℝ) : CMAES.Spec.IsPD (B * C * Bᵀ) ↔ CMAES.Spec.IsPD C := by
  rw [CMAES.isPD_iff, CMAES.isPD_iff]
  have := Matrix.IsUnit.posDef_star_right_conjugate_iff (x := C) hB.isUnit
  rwa [Matrix.star_eq_conjTranspose, Matrix.conjTranspose_eq_transpose_of_trivial] at this

/-- The state of CMA-ES in the coordinates `k B x + b`. -/
def cmaCore (k : ℝ) (B : Matrix (Fin d) (Fin d) ℝ) (b : Vec ℝ d) (c : CMAES.Core d) : CMAES.Core d :=
  { m := k • B.mulVec c.m + b, sigma := k * c.sigma, pSigma := c.pSigma, pC := B.mulVec c.pC, steps := c.steps }

def cmaFull (k : ℝ) (B : Matrix (Fin d) (Fin d) ℝ) (b : Vec ℝ d) (s : CMAES.Full d) : CMAES.Full d :=
  { toCore := cmaCore k B b s.toCore, C := B * s.C * Bᵀ, A := B * s.A }

theorem recombine_linear (B : Matrix (Fin d) (Fin d) ℝ) (top : List (Fin n)) (w : Fin n → ℝ) (ys : Fin n → Vec ℝ d) :
    CMAES.recombine top w (fun i => B.mulVec (ys i)) = B.mulVec (CMAES.recombine top w ys) := by
  funext a
  simp only [CMAES.recombine, Matrix.mulVec, dotProduct]
  induction top with
  | nil => simp
  | cons i top ih =>
    simp only [List.map_cons, List.sum_cons, ih, mul_add, Finset.sum_add_distrib]
    congr 1
    rw [Finset.mul_sum]
    exact Finset.sum_congr rfl fun j _ => by ring

theorem samples_affine (k : ℝ) (B : Matrix (Fin d) (Fin d) ℝ) (b : Vec ℝ d) (c : CMAES.Core d) (ys : Fin n → Vec ℝ d) (i : Fin n) :
    CMAES.samples (cmaCore k B b c) (fun i => B.mulVec (ys i)) i = k • B.mulVec (CMAES.samples c ys i) + b := by
  have : CMAES.samples c ys i = c.m + c.sigma • ys i := by funext j; simp [CMAES.samples]
  rw [this, Matrix.mulVec_add, Matrix.mulVec_smul]
  funext j
  simp only [CMAES.samples, cmaCore, Pi.add_apply, Pi.smul_apply, smul_eq_mul]
  ring

theorem updateM_affine (o : CMAES.Options) (k : ℝ) (B : Matrix (Fin d) (Fin d) ℝ) (b : Vec ℝ d) (c : CMAES.Core d) (v : Vec ℝ d) :
    CMAES.updateM o (cmaCore k B b c) (B.mulVec v) = k • B.mulVec (CMAES.updateM o c v) + b := by
  have : CMAES.updateM o c v = c.m + (o.cM * c.sigma) • v := by funext j; simp [CMAES.updateM]
  rw [this, Matrix.mulVec_add, Matrix.mulVec_smul]
  funext j
  simp only [CMAES.updateM, cmaCore, Pi.add_apply, Pi.smul_apply, smul_eq_mul]
  ring

theorem updatePSigma_affine (o : CMAES.Options) (k : ℝ) (B : Matrix (Fin d) (Fin d) ℝ) (b : Vec ℝ d) (c : CMAES.Core d) (v : Vec ℝ d) :
    CMAES.updatePSigma o n (cmaCore k B b c) v = CMAES.updatePSigma o n c v := rfl

theorem updateSigma_affine (o : CMAES.Options) (k : ℝ) (B : Matrix (Fin d) (Fin d) ℝ) (b : Vec ℝ d) (c : CMAES.Core d) (v : Vec ℝ d) :
    CMAES.updateSigma o n (cmaCore k B b c).sigma v = k * CMAES.updateSigma o n c.sigma v := by
  simp only [CMAES.updateSigma, cmaCore]
  rw [mul_assoc]

theorem updatePC_affine (o : CMAES.Options) (k : ℝ) (B : Matrix (Fin d) (Fin d) ℝ) (b : Vec ℝ d) (c : CMAES.Core d) (v : Vec ℝ d) (h : ℝ) :
    CMAES.updatePC o n (cmaCore k B b c) (B.mulVec v) h = B.mulVec (CMAES.updatePC o n c v h) := by
  have : CMAES.updatePC o n c v h = (1 - CMAES.cC o d n) • c.pC + (h * CMAES.varianceDiscountC o d n) • v := by funext j; simp [CMAES.updatePC]
  rw [this, Matrix.mulVec_add, Matrix.mulVec_smul, Matrix.mulVec_smul]
  rfl

theorem stepCore_affine (o : CMAES.Options) (sort : Sorter ℝ) (sense : Sense) (topk : CMAES.Topk n) (freq : Nat) (k : ℝ) (B : Matrix (Fin d) (Fin d) ℝ) (b : Vec ℝ d) (f f' : Vec ℝ d → ℝ)
    (hf : ∀ x, f' (k • B.mulVec x + b) = f x) (c : CMAES.Core d) (zs ys : Fin n → Vec ℝ d) :
    CMAES.stepCore o (cmaEnv sort sense topk freq f' zs) (cmaCore k B b c) (fun i => B.mulVec (ys i)) =
      (cmaCore k B b (CMAES.stepCore o (cmaEnv sort sense topk freq f zs) c ys).1, (CMAES.stepCore o (cmaEnv sort sense topk freq f zs) c ys).2) := by
  have hs : (cmaEnv sort sense topk freq f' zs).sorted (CMAES.samples (cmaCore k B b c) fun i => B.mulVec (ys i)) = (cmaEnv sort sense topk freq f zs).sorted (CMAES.samples c ys) := by
    simp only [cmaEnv, samples_affine, hf]
  have hz : (cmaEnv sort sense topk freq f' zs).zs = (cmaEnv sort sense topk freq f zs).zs := rfl
  have ht : (cmaEnv sort sense topk freq f' zs).topk = (cmaEnv sort sense topk freq f zs).topk := rfl
  simp only [CMAES.stepCore, hs, hz, ht, recombine_linear, updateM_affine, updatePSigma_affine, updatePC_affine, updateSigma_affine]
  rfl


/-- An update of the covariance in other coordinates. -/
theorem updateCFull_affine (o : CMAES.Options) (B C : Matrix (Fin d) (Fin d) ℝ) (pC : Vec ℝ d) (zs ys : Fin n → Vec ℝ d) (w : Fin n → ℝ) (h : ℝ) :
    CMAES.updateCFull o (B * C * Bᵀ) (B.mulVec pC) zs (fun i => B.mulVec (ys i)) w h = B * CMAES.updateCFull o C pC zs ys w h * Bᵀ := by
  have hform : ∀ (C : Matrix (Fin d) (Fin d) ℝ) (pC : Vec ℝ d) (ys : Fin n → Vec ℝ d), CMAES.updateCFull o C pC zs ys w h =
      C + CMAES.c1a o d n h • (CMAES.weightedPc o d n h ^ 2 • vecMulVec pC pC - C) +
        CMAES.cMu o d n • ((∑ i, CMAES.reweight o zs w i • vecMulVec (ys i) (ys i)) - CMAES.sumWeights o d n • C) := by
    intro C pC ys
    ext a b
    simp only [CMAES.updateCFull, Matrix.add_apply, Matrix.smul_apply, Matrix.sub_apply, Matrix.sum_apply, vecMulVec_apply, smul_eq_mul]
    ring
  have hv : ∀ v : Vec ℝ d, vecMulVec (B.mulVec v) (B.mulVec v) = B * vecMulVec v v * Bᵀ := by
    intro v
    rw [Matrix.mul_vecMulVec, Matrix.vecMulVec_mul, Matrix.vecMul_transpose]
  rw [hform, hform]
  simp only [hv, Matrix.mul_add, Matrix.add_mul, Matrix.mul_sub, Matrix.sub_mul, Matrix.mul_smul, Matrix.smul_mul, Matrix.mul_sum, Matrix.sum_mul]

theorem chol_congr {chol : Matrix (Fin d) (Fin d) ℝ → Option (Matrix (Fin d) (Fin d) ℝ)} (hch : CholeskySpec chol) {B : Matrix (Fin d) (Fin d) ℝ} (hB : LowerPos B) (C : Matrix (Fin d) (Fin d) ℝ) :
    chol (B * C * Bᵀ) = (chol C).map (B * ·) := by
  have hfac : ∀ M A, chol M = some A → M = A * Aᵀ := by
    intro M A h
    ext a b
    rw [(hch.1.2 M A h).2 a b]
    simp [Matrix.mul_apply]
  cases hc : chol C with
  | none =>
    cases hc' : chol (B * C * Bᵀ) with
    | none => rfl
    | some A' =>
      obtain ⟨A, hA⟩ := hch.1.1 C ((isPD_congr hB C).1 (hch.1.2 _ _ hc').1)
      rw [hA] at hc
      cases hc
  | some A =>
    obtain ⟨A', hA'⟩ := hch.1.1 (B * C * Bᵀ) ((isPD_congr hB C).2 (hch.1.2 _ _ hc).1)
    rw [hA']
    have : A' = B * A := by
      refine cholesky_unique (hch.2 _ _ hA') (hB.mul (hch.2 _ _ hc)) ?_
      rw [← hfac _ _ hA', hfac C A hc, Matrix.transpose_mul]
      simp only [Matrix.mul_assoc]
    rw [this]
    rfl

theorem stepFull_affine {chol : Matrix (Fin d) (Fin d) ℝ → Option (Matrix (Fin d) (Fin d) ℝ)} (hch : CholeskySpec chol) (o : CMAES.Options) (ho : o.limits = false) (sort : Sorter ℝ) (sense : Sense)
    (topk : CMAES.Topk n) (freq : Nat) (k : ℝ) {B : Matrix (Fin d) (Fin d) ℝ} (hB : LowerPos B) (b : Vec ℝ d) (f f' : Vec ℝ d → ℝ) (hf : ∀ x, f' (k • B.mulVec x + b) = f x) (s : CMAES.Full d) (zs : Fin n → Vec ℝ d) :
    CMAES.stepFull chol o (cmaEnv sort sense topk freq f' zs) (cmaFull k B b s) = (CMAES.stepFull chol o (cmaEnv sort sense topk freq f zs) s).map (cmaFull k B b) := by
  have hys : CMAES.shapedFull (B * s.A) zs = fun i => B.mulVec (CMAES.shapedFull s.A zs i) := by
    funext i
    simp only [CMAES.shapedFull, Matrix.mulVec_mulVec]
  have hcore := stepCore_affine o sort sense topk freq k B b f f' hf s.toCore zs (CMAES.shapedFull s.A zs)
  have hC : CMAES.nextCFull o (cmaEnv sort sense topk freq f' zs) (cmaFull k B b s) = B * CMAES.nextCFull o (cmaEnv sort sense topk freq f zs) s * Bᵀ := by
    simp only [CMAES.nextCFull, ho, Bool.false_eq_true, if_false, cmaFull]
    have : (cmaEnv sort sense topk freq f' zs).zs = zs := rfl
    have h' : (cmaEnv sort sense topk freq f zs).zs = zs := rfl
    rw [this, h', hys, hcore]
    exact updateCFull_affine o B s.C _ zs _ _ _
  simp only [CMAES.stepFull, hC, chol_congr hch hB]
  have e1 : (cmaEnv sort sense topk freq f' zs).freq = (cmaEnv sort sense topk freq f zs).freq := rfl
  have e2 : (cmaFull k B b s).steps = s.steps := rfl
  have e3 : CMAES.shapedFull (cmaFull k B b s).A (cmaEnv sort sense topk freq f' zs).zs = fun i => B.mulVec (CMAES.shapedFull s.A zs i) := hys
  have e4 : (cmaFull k B b s).toCore = cmaCore k B b s.toCore := rfl
  have e5 : (cmaEnv sort sense topk freq f zs).zs = zs := rfl
  rw [e1, e2, e3, e4, hcore, e5]
  split
  · cases chol (CMAES.nextCFull o (cmaEnv sort sense topk freq f zs) s) with
    | none => rfl
    | some A => rfl
  · rfl

/-- C115: CMA-ES without standard deviation limits does the same in the coordinates `k B x + b`, for a scale `k` and a lower triangular `B` with a positive diagonal (in particular after a shift of the origin, a change of the
common unit, or changes of the units of the variables together with the initial covariance). The covariance is decomposed by the Cholesky factorisation, which is not compatible with rotations. -/
theorem C115_cmaes_coordinates {chol : Matrix (Fin d) (Fin d) ℝ → Option (Matrix (Fin d) (Fin d) ℝ)} (hch : CholeskySpec chol) (o : CMAES.Options) (ho : o.stdevMin = none ∧ o.stdevMax = none) (sort : Sorter ℝ)
    (sense : Sense) (topk : CMAES.Topk n) (freq : Nat) (k : ℝ) {B : Matrix (Fin d) (Fin d) ℝ} (hB : LowerPos B) (b : Vec ℝ d) (f f' : Vec ℝ d → ℝ) (hf : ∀ x, f' (k • B.mulVec x + b) = f x)
    (zss : List (Fin n → Vec ℝ d)) (s : CMAES.Full d) :
    cmaRun chol sort sense topk freq o f' (cmaFull k B b s) zss = (cmaRun chol sort sense topk freq o f s zss).map (cmaFull k B b) := by
  have ho' : o.limits = false := by simp [CMAES.Options.limits, ho.1, ho.2]
  unfold cmaRun
  induction zss generalizing s with
  | nil => rfl
  | cons zs rest ih =>
    simp only [List.map_cons, CMAES.runFull, stepFull_affine hch o ho' sort sense topk freq k hB b f f' hf]
    cases CMAES.stepFull chol o (cmaEnv sort sense topk freq f zs) s with
    | error e => rfl
    | ok s' => exact ih s'

/-- C115: a CMA-ES search started at `k m + b` with the step size `k σ` for the correspondingly transformed fitness is the transformed search. -/
theorem C115_cmaes_shift_and_scale {chol : Matrix (Fin d) (Fin d) ℝ → Option (Matrix (Fin d) (Fin d) ℝ)} (hch : CholeskySpec chol) (o : CMAES.Options) (ho : o.stdevMin = none ∧ o.stdevMax = none) (sort : Sorter ℝ)
    (sense : Sense) (topk : CMAES.Topk n) (freq : Nat) (k : ℝ) (b : Vec ℝ d) (f f' : Vec ℝ d → ℝ) (hf : ∀ x, f' (k • x + b) = f x) (zss : List (Fin n → Vec ℝ d)) (m : Vec ℝ d) (sigma : ℝ) :
    cmaRun chol sort sense topk freq o f' (CMAES.Full.init (k • m + b) (k * sigma)) zss =
      (cmaRun chol sort sense topk freq o f (CMAES.Full.init m sigma) zss).map fun s => { s with m := k • s.m + b, sigma := k * s.sigma } := by
  have h1 : LowerPos (1 : Matrix (Fin d) (Fin d) ℝ) := ⟨fun i j hij => Matrix.one_apply_ne hij.ne, fun i => by simp⟩
  have h := C115_cmaes_coordinates hch o ho sort sense topk freq k h1 b f f' (by simpa using hf) zss (CMAES.Full.init m sigma)
  have e : ∀ s : CMAES.Full d, cmaFull k 1 b s = { s with m := k • s.m + b, sigma := k * s.sigma } := by
    intro s
    simp [cmaFull, cmaCore]
  rw [e, funext e] at h
  exact h

/-- The state of separable CMA-ES in the coordinates `k c x + b` (componentwise). -/
def cmaSep (k : ℝ) (c b : Vec ℝ d) (s : CMAES.Sep d) : CMAES.Sep d :=
  { m := fun j => k * (c j * s.m j) + b j, sigma := k * s.sigma, pSigma := s.pSigma, pC := fun j => c j * s.pC j, steps := s.steps, C := fun j => c j ^ 2 * s.C j, A := fun j => c j * s.A j }

theorem diagonal_mulVec (c v : Vec ℝ d) : (Matrix.diagonal c).mulVec v = fun j => c j * v j := by
  funext j
  rw [Matrix.mulVec_diagonal]

theorem stepSep_affine (o : CMAES.Options) (ho : o.limits = false) (sort : Sorter ℝ) (sense : Sense) (topk : CMAES.Topk n) (freq : Nat) (k : ℝ) (c b : Vec ℝ d) (hc : ∀ j, 0 < c j) (f f' : Vec ℝ d → ℝ)
    (hf : ∀ x, f' (fun j => k * (c j * x j) + b j) = f x) (s : CMAES.Sep d) (zs : Fin n → Vec ℝ d) :
    CMAES.stepSep o (cmaEnv sort sense topk freq f' zs) (cmaSep k c b s) = cmaSep k c b (CMAES.stepSep o (cmaEnv sort sense topk freq f zs) s) := by
  have hT : ∀ x : Vec ℝ d, k • (Matrix.diagonal c).mulVec x + b = fun j => k * (c j * x j) + b j := by
    intro x
    rw [diagonal_mulVec]
    rfl
  have hys : CMAES.shapedSep (cmaSep k c b s).A zs = fun i => (Matrix.diagonal c).mulVec (CMAES.shapedSep s.A zs i) := by
    funext i
    rw [diagonal_mulVec]
    funext j
    simp only [CMAES.shapedSep, cmaSep]
    ring
  have hcr : ∀ x : CMAES.Core d, cmaCore k (Matrix.diagonal c) b x = { m := fun j => k * (c j * x.m j) + b j, sigma := k * x.sigma, pSigma := x.pSigma, pC := fun j => c j * x.pC j, steps := x.steps } := by
    intro x
    simp only [cmaCore, diagonal_mulVec]
    rfl
  have hcore := stepCore_affine o sort sense topk freq k (Matrix.diagonal c) b f f' (by simpa only [hT] using hf) s.toCore zs (CMAES.shapedSep s.A zs)
  have h0 : (cmaSep k c b s).toCore = cmaCore k (Matrix.diagonal c) b s.toCore := by rw [hcr]; rfl
  have hz : ∀ f, (cmaEnv sort sense topk freq f zs).zs = zs := fun _ => rfl
  have hC : ∀ (C pC : Vec ℝ d) (ys : Fin n → Vec ℝ d) (w : Fin n → ℝ) (h : ℝ), CMAES.updateCSep o (fun j => c j ^ 2 * C j) (fun j => c j * pC j) zs (fun i => (Matrix.diagonal c).mulVec (ys i)) w h =
      fun j => c j ^ 2 * CMAES.updateCSep o C pC zs ys w h j := by
    intro C pC ys w h
    funext j
    simp only [CMAES.updateCSep, diagonal_mulVec]
    have : ∑ i, CMAES.reweight o zs w i * ((c j * ys i j) ^ 2 - c j ^ 2 * C j) = c j ^ 2 * ∑ i, CMAES.reweight o zs w i * (ys i j ^ 2 - C j) := by
      rw [Finset.mul_sum]
      exact Finset.sum_congr rfl fun i _ => by ring
    rw [this]
    ring
  have hsq : ∀ v : Vec ℝ d, (fun j => Real.sqrt (c j ^ 2 * v j)) = fun j => c j * Real.sqrt (v j) := by
    intro v
    funext j
    rw [Real.sqrt_mul (sq_nonneg _), Real.sqrt_sq (hc j).le]
  simp only [CMAES.stepSep, hz, ho, Bool.false_eq_true, if_false]
  rw [hys, h0, hcore, hcr]
  have e1 : (cmaEnv sort sense topk freq f' zs).freq = (cmaEnv sort sense topk freq f zs).freq := rfl
  have e2 : (cmaSep k c b s).C = fun j => c j ^ 2 * s.C j := rfl
  have e3 : (cmaCore k (Matrix.diagonal c) b s.toCore).steps = s.steps := rfl
  simp only [e1, e2, e3, hC, hsq]
  simp only [cmaSep, CMAES.Sep.mk.injEq, true_and]
  split <;> rfl

/-- C115: separable CMA-ES without standard deviation limits does the same after a shift of the origin and a change of the unit of each variable. -/
theorem C115_cmaes_separable_coordinates (o : CMAES.Options) (ho : o.stdevMin = none ∧ o.stdevMax = none) (sort : Sorter ℝ) (sense : Sense) (topk : CMAES.Topk n) (freq : Nat) (k : ℝ) (c b : Vec ℝ d)
    (hc : ∀ j, 0 < c j) (f f' : Vec ℝ d → ℝ) (hf : ∀ x, f' (fun j => k * (c j * x j) + b j) = f x) (zss : List (Fin n → Vec ℝ d)) (s : CMAES.Sep d) :
    cmaSepRun sort sense topk freq o f' (cmaSep k c b s) zss = cmaSep k c b (cmaSepRun sort sense topk freq o f s zss) := by
  have ho' : o.limits = false := by simp [CMAES.Options.limits, ho.1, ho.2]
  unfold cmaSepRun CMAES.runSep
  induction zss generalizing s with
  | nil => rfl
  | cons zs rest ih =>
    simp only [List.map_cons, List.foldl_cons, stepSep_affine o ho' sort sense topk freq k c b hc f f' hf]
    exact ih _

/-- The hypotheses are met: a sorter, a factorisation, a triangular matrix and a fitness function in other coordinates. -/
example : SorterSpec (exampleSorter : Sorter ℝ) ∧ OrderOnly exampleSorter ∧ CholeskySpec (cholesky (d := 2)) ∧ LowerPos !![2, 0; 1, (3 : ℝ)] ∧
    (∃ Binv, !![2, 0; 1, (3 : ℝ)] * Binv = 1) ∧ ∃ f f' : Vec ℝ 2 → ℝ, (∀ x, f' ((5 : ℝ) • (!![2, 0; 1, (3 : ℝ)]).mulVec x + ![1, -1]) = f x) ∧ f ![1, 0] ≠ f ![0, 0] ∧ StrictMono (fun a : ℝ => 2 * a + 1) := by
  refine ⟨exampleSorter_spec, exampleSorter_orderOnly, cholesky_spec, ⟨?_, ?_⟩, ⟨!![1/2, 0; -1/6, 1/3], ?_⟩, fun x => 10 * x 0 + 1, fun x => x 0, ?_, ?_, ?_⟩
  · intro i j hij
    fin_cases i <;> fin_cases j <;> simp at hij ⊢
  · intro i
    fin_cases i <;> simp
  · ext i j
    fin_cases i <;> fin_cases j <;> norm_num [Matrix.mul_apply, Fin.sum_univ_succ]
  · intro x
    simp [dotProduct, Fin.sum_univ_succ]
    ring
  · norm_num
  · intro a b h
    simp only
    linarith

end EvoTorch.Generations
