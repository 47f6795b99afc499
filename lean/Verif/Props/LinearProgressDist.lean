import Verif.Props.LinearProgressOptim
import Verif.Props.GradSampling
/-!
C177: a distributed PGPE search keeps what a local one has.
-/
namespace EvoTorch.LinearProgress
open EvoTorch.Generations EvoTorch.Distribution
open EvoTorch.BestWorst (Sense)
open EvoTorch.Selection (Sorter SorterSpec NotWorse exampleSorter exampleSorter_spec)
open EvoTorch.Optimizers (NVec ClipUp SGD Adam)
open EvoTorch.GradSampling (Answer weightOf HasGrad combine)

variable {d : ℕ} {ω : Type}

theorem mapM_all_ok {α β : Type} {F : α → Except PyErr β} {A : α → β} (l : List α) (h : ∀ x ∈ l, F x = .ok (A x)) : l.mapM F = .ok (l.map A) := by
  induction l with
  | nil => rfl
  | cons x xs ih =>
    rw [List.mapM_cons, h x (by simp), ih fun y hy => h y (by simp [hy])]
    rfl

theorem actorAnswer_eq {sort : Sorter ℝ} {p : Pgpe} {f : Vec ℝ d → ℝ} {s : Vec ℝ d × Vec ℝ d} {zs : List (Vec ℝ d)} {g : Grads ℝ d} (h : pgpeGradients sort p f s zs = .ok g) :
    actorAnswer sort p f s zs = .ok (answerWith f (population p s zs) g) := by
  unfold actorAnswer population
  rw [h]
  by_cases hp : p.symmetric = true
  · simp only [hp, if_true, symmetric_eq, Except.bind]
  · simp only [hp, Bool.false_eq_true, if_false, sample_eq, Except.bind]

/-- The gradients of a distributed generation are the weighted averages of those of its actors, each of which has `k` solutions for each of its draws. -/
theorem pooled_eq (weighted : Bool) {f : Vec ℝ d → ℝ} {zss : List (List (Vec ℝ d))} (hne : zss ≠ []) {answer : List (Vec ℝ d) → Except PyErr (Answer ℝ d)} {P : List (Vec ℝ d) → List (Vec ℝ d)} {G : List (Vec ℝ d) → Grads ℝ d}
    (hG : ∀ zs ∈ zss, zs ≠ [] ∧ answer zs = .ok (answerWith f (P zs) (G zs))) {k : ℕ} (hk0 : 0 < k) (hk : ∀ zs, (P zs).length = k * zs.length) :
    ∃ w : List (Vec ℝ d) → ℝ, (∀ zs ∈ zss, 0 < w zs ∧ w zs = if weighted then (zs.length : ℝ) / (zss.flatten.length : ℝ) else 1 / (zss.length : ℝ)) ∧
      pooled answer weighted zss = .ok ⟨fun j => (zss.map fun zs => w zs * (G zs).mu j).sum, fun j => (zss.map fun zs => w zs * (G zs).sigma j).sum⟩ := by
  obtain ⟨A, hA⟩ : ∃ A : List (Vec ℝ d) → Answer ℝ d, A = fun zs => answerWith f (P zs) (G zs) := ⟨_, rfl⟩
  have hm : zss.mapM answer = .ok (zss.map A) := mapM_all_ok zss fun zs h => by rw [(hG zs h).2, hA]
  have hnum : ∀ zs, (A zs).numSolutions = k * zs.length := fun zs => by rw [hA]; exact hk zs
  have hsum : ∀ l : List (List (Vec ℝ d)), ((l.map A).map Answer.numSolutions).sum = k * l.flatten.length := by
    intro l
    induction l with
    | nil => simp
    | cons x xs ih => rw [List.map_cons, List.map_cons, List.sum_cons, ih, hnum]; simp [mul_add]
  have hlen : ∀ zs ∈ zss, 0 < zs.length := fun zs h => List.length_pos_iff.mpr (hG zs h).1
  have htot : 0 < zss.flatten.length := by
    obtain ⟨zs, hzs⟩ := List.exists_mem_of_ne_nil _ hne
    obtain ⟨x, hx⟩ := List.exists_mem_of_ne_nil _ (hG zs hzs).1
    exact List.length_pos_of_mem (List.mem_flatten.mpr ⟨zs, hzs, hx⟩)
  obtain ⟨⟨e, he⟩, -, -⟩ := GradSampling.C55_weighted_average weighted (zss.map A) (by simpa using hne) (by rw [hsum]; positivity) ["mu", "sigma"] (by rw [hA]; simp [answerWith])
    (fun key a => match a.gradients.lookup key with
      | some (.vec g) => g
      | _ => 0) (by
      intro key hkey a ha
      obtain ⟨zs, -, rfl⟩ := List.mem_map.mp ha
      rw [hA]
      rcases List.mem_cons.mp hkey with rfl | hkey
      · rfl
      · rcases List.mem_cons.mp hkey with rfl | hkey
        · rfl
        · cases hkey)
  have hflat : (0 : ℝ) < (zss.flatten.length : ℝ) := by exact_mod_cast htot
  have hzl : (0 : ℝ) < (zss.length : ℝ) := by exact_mod_cast List.length_pos_iff.mpr hne
  have hkr : (0 : ℝ) < (k : ℝ) := by exact_mod_cast hk0
  refine ⟨fun zs => weightOf weighted (zss.map A) (A zs), fun zs hzs => ?_, ?_⟩
  · have hz : (0 : ℝ) < (zs.length : ℝ) := by exact_mod_cast hlen zs hzs
    have : weightOf weighted (zss.map A) (A zs) = if weighted then (zs.length : ℝ) / (zss.flatten.length : ℝ) else 1 / (zss.length : ℝ) := by
      unfold weightOf
      rw [hsum, hnum]
      cases weighted
      · simp
      · simp only [if_true, Nat.cast_mul]
        field_simp
    refine ⟨?_, this⟩
    dsimp only
    rw [this]
    cases weighted <;> simp only [Bool.false_eq_true, if_false, if_true] <;> positivity
  · unfold pooled
    rw [hm]
    simp only [Except.bind, he]
    simp only [List.map_map, Function.comp_def, hA]
    rfl

/-- The gradients of a distributed generation of PGPE. -/
theorem distGradients_eq {sort : Sorter ℝ} {p : Pgpe} (weighted : Bool) {f : Vec ℝ d → ℝ} {s : Vec ℝ d × Vec ℝ d} {zss : List (List (Vec ℝ d))} (hne : zss ≠ []) {G : List (Vec ℝ d) → Grads ℝ d}
    (hG : ∀ zs ∈ zss, zs ≠ [] ∧ pgpeGradients sort p f s zs = .ok (G zs)) :
    ∃ w : List (Vec ℝ d) → ℝ, (∀ zs ∈ zss, 0 < w zs ∧ w zs = if weighted then (zs.length : ℝ) / (zss.flatten.length : ℝ) else 1 / (zss.length : ℝ)) ∧
      distGradients sort p weighted f s zss = .ok ⟨fun j => (zss.map fun zs => w zs * (G zs).mu j).sum, fun j => (zss.map fun zs => w zs * (G zs).sigma j).sum⟩ := by
  obtain ⟨k, hk0, hk⟩ : ∃ k : ℕ, 0 < k ∧ ∀ zs : List (Vec ℝ d), (population p s zs).length = k * zs.length := by
    by_cases hp : p.symmetric = true
    · exact ⟨2, by norm_num, fun zs => by simp [population, hp, mul_comm]⟩
    · exact ⟨1, by norm_num, fun zs => by simp [population, hp]⟩
  exact pooled_eq weighted hne (P := population p s) (fun zs h => ⟨(hG zs h).1, actorAnswer_eq (hG zs h).2⟩) hk0 hk

theorem gain_list {α : Type} (a : Vec ℝ d) (sense : Sense) (w : α → ℝ) (v : α → Vec ℝ d) (l : List α) : gain a sense (fun j => (l.map fun x => w x * v x j).sum) = (l.map fun x => w x * gain a sense (v x)).sum := by
  induction l with
  | nil => simpa using gain_zero a sense
  | cons x xs ih =>
    simp only [List.map_cons, List.sum_cons]
    have := gain_add a sense (w x) 1 (v x) fun j => (xs.map fun x => w x * v x j).sum
    simp only [one_mul] at this
    rw [this, ih]

/-- The gradient of a distributed generation does not point to worse places. -/
theorem dist_forward {sort : Sorter ℝ} (hs : SorterSpec sort) (p : Pgpe) (weighted : Bool) {f : Vec ℝ d → ℝ} {a : Vec ℝ d} {b : ℝ} (hf : ∀ x, f x = b + ∑ j, a j * x j) (s : Vec ℝ d × Vec ℝ d) (zss : List (List (Vec ℝ d)))
    (hne : zss ≠ []) (hr : ∀ zs ∈ zss, Rankable p.method ((population p s zs).map f)) :
    ∃ g, distGradients sort p weighted f s zss = .ok g ∧ 0 ≤ gain a p.sense g.mu ∧ ((∃ zs ∈ zss, ∃ x ∈ population p s zs, ∃ y ∈ population p s zs, f x ≠ f y) → 0 < gain a p.sense g.mu) := by
  have hall : ∀ zs, ∃ g, zs ∈ zss → pgpeGradients sort p f s zs = .ok g ∧ 0 ≤ gain a p.sense g.mu ∧ ((∃ x ∈ population p s zs, ∃ y ∈ population p s zs, f x ≠ f y) → 0 < gain a p.sense g.mu) := by
    intro zs
    by_cases h : zs ∈ zss
    · obtain ⟨g, hg⟩ := gradient_forward hs p hf s zs (hr zs h)
      exact ⟨g, fun _ => hg⟩
    · exact ⟨⟨0, 0⟩, fun h' => absurd h' h⟩
  choose G hG using hall
  obtain ⟨w, hw, he⟩ := distGradients_eq weighted hne (G := G) fun zs h => by
    refine ⟨fun h0 => ?_, (hG zs h).1⟩
    have := (hr zs h).1
    rw [h0] at this
    simp [population] at this
  have hnn : ∀ x ∈ zss.map fun zs => w zs * gain a p.sense (G zs).mu, 0 ≤ x := by
    intro x hx
    obtain ⟨zs, hzs, rfl⟩ := List.mem_map.mp hx
    exact mul_nonneg (hw zs hzs).1.le (hG zs hzs).2.1
  refine ⟨_, he, ?_, fun ⟨zs, hzs, hv⟩ => ?_⟩
  · rw [gain_list a p.sense w (fun zs => (G zs).mu)]
    exact List.sum_nonneg hnn
  · rw [gain_list a p.sense w (fun zs => (G zs).mu)]
    have hpos : 0 < w zs * gain a p.sense (G zs).mu := mul_pos (hw zs hzs).1 ((hG zs hzs).2.2 hv)
    exact lt_of_lt_of_le hpos (List.single_le_sum hnn _ (List.mem_map.mpr ⟨zs, hzs, rfl⟩))

/-- A distributed generation with at least two solutions for each actor (mirrored solutions: at least one direction). -/
def Shared (p : Pgpe) (zss : List (List (Vec ℝ d))) : Prop := zss ≠ [] ∧ ∀ zs ∈ zss, 2 ≤ if p.symmetric then 2 * zs.length else zs.length

theorem shared_rankable {p : Pgpe} (hm : p.method = .nes ∨ p.method = .centered ∨ p.method = .linear) (f : Vec ℝ d → ℝ) (s : Vec ℝ d × Vec ℝ d) {zss : List (List (Vec ℝ d))} (h : Shared p zss) (zs : List (Vec ℝ d)) (hz : zs ∈ zss) :
    Rankable p.method ((population p s zs).map f) := by
  refine rankable_of hm ?_
  have := h.2 zs hz
  by_cases hp : p.symmetric = true
  · simp only [hp, if_true] at this
    simp [population, hp]
    omega
  · simp only [hp, Bool.false_eq_true, if_false] at this
    simp [population, hp]
    omega

theorem shared_forward {sort : Sorter ℝ} (hs : SorterSpec sort) (p : Pgpe) (hm : p.method = .nes ∨ p.method = .centered ∨ p.method = .linear) (weighted : Bool) {f : Vec ℝ d → ℝ} {a : Vec ℝ d} {b : ℝ}
    (hf : ∀ x, f x = b + ∑ j, a j * x j) (zss : List (List (Vec ℝ d))) (h : Shared p zss) : Forward a p.sense (distGradients sort p weighted f) zss := fun s => by
  obtain ⟨g, hg, h0, -⟩ := dist_forward hs p weighted hf s zss h.1 (shared_rankable hm f s h)
  exact ⟨g, hg, h0⟩

/-- **C177, without an optimiser.** On a linear fitness function, the center of a distributed PGPE search is at no time worse than at an earlier time, however the solutions are shared among the actors, although each actor ranks its
own solutions only. -/
theorem C177_run {sort : Sorter ℝ} (hs : SorterSpec sort) (p : Pgpe) (hm : p.method = .nes ∨ p.method = .centered ∨ p.method = .linear) (weighted : Bool) {lr : ℝ} (hlr : 0 ≤ lr) {f : Vec ℝ d → ℝ} (hf : Linear f)
    (mu sigma : Vec ℝ d) (earlier later : List (List (List (Vec ℝ d)))) (hz : ∀ zss ∈ earlier ++ later, Shared p zss) :
    ∃ s1 s2 mu1 mu2, pgpeDistRun (plainAscent lr) sort p weighted f ⟨some mu, sigma, ()⟩ earlier = .ok s1 ∧ pgpeDistRun (plainAscent lr) sort p weighted f ⟨some mu, sigma, ()⟩ (earlier ++ later) = .ok s2 ∧
      s1.mu = some mu1 ∧ s2.mu = some mu2 ∧ NotWorse p.sense (f mu2) (f mu1) := by
  obtain ⟨a, b, hf⟩ := hf
  obtain ⟨s1, s2, e1, e2, hw⟩ := two_times (ascent := plainAscent lr) (addSpread p.lrSigma) hf (Good := fun _ => True) (fun o g _ hg v hv => by
      injection hv with hv
      refine ⟨trivial, ?_⟩
      rw [← hv, gain_smul]
      exact mul_nonneg hlr hg) earlier later (fun zss h => shared_forward hs p hm weighted hf zss (hz zss h)) ⟨some mu, sigma, ()⟩ fun _ _ => trivial
  obtain ⟨mu2, hmu2⟩ := Option.ne_none_iff_exists'.mp (stays_alive (by simp [plainAscent]) (addSpread p.lrSigma) _ _ s2 (by simp) e2)
  obtain ⟨mu1, hmu1, hw⟩ := hw mu2 hmu2
  exact ⟨s1, s2, mu1, mu2, e1, e2, hmu1, hmu2, hw⟩

/-- **C177 for ClipUp.** -/
theorem C177_clipup_run {sort : Sorter ℝ} (hs : SorterSpec sort) (p : Pgpe) (hm : p.method = .nes ∨ p.method = .centered ∨ p.method = .linear) (weighted : Bool) {f : Vec ℝ d → ℝ} (hf : Linear f)
    {stepsize momentum : ℝ} {maxSpeed : Option ℝ} {c : ClipUp d} (hc : ClipUp.create d stepsize momentum maxSpeed = .ok c) (mu sigma : Vec ℝ d) (earlier later : List (List (List (Vec ℝ d))))
    (hz : ∀ zss ∈ earlier ++ later, Shared p zss) :
    ∃ s1 s2, pgpeDistRun ClipUp.ascent sort p weighted f ⟨some mu, sigma, c⟩ earlier = .ok s1 ∧ pgpeDistRun ClipUp.ascent sort p weighted f ⟨some mu, sigma, c⟩ (earlier ++ later) = .ok s2 ∧
      ∀ mu2, s2.mu = some mu2 → ∃ mu1, s1.mu = some mu1 ∧ NotWorse p.sense (f mu2) (f mu1) := by
  obtain ⟨a, b, hf⟩ := hf
  exact two_times (addSpread p.lrSigma) hf (Good := ForwardClipUp a p.sense) (fun o g ho hg => (clipup_ascent a p.sense ho hg).1) earlier later (fun zss h => shared_forward hs p hm weighted hf zss (hz zss h)) _
    fun _ _ => (created hc a p.sense).1

/-- **C177 for ClipUp, real progress.** It is enough that the solutions of one actor are not all equally good. -/
theorem C177_clipup_better {sort : Sorter ℝ} (hs : SorterSpec sort) (p : Pgpe) (hm : p.method = .nes ∨ p.method = .centered ∨ p.method = .linear) (weighted : Bool) {f : Vec ℝ d → ℝ} (hf : Linear f)
    {stepsize momentum : ℝ} {maxSpeed : Option ℝ} {c : ClipUp d} (hc : ClipUp.create d stepsize momentum maxSpeed = .ok c) (h1 : 0 < stepsize) (h2 : maxSpeed ≠ some 0) (mu sigma : Vec ℝ d)
    (gens : List (List (List (Vec ℝ d)))) (hz : ∀ zss ∈ gens, Shared p zss) (s1 : OptState d (ClipUp d)) (hrun : pgpeDistRun ClipUp.ascent sort p weighted f ⟨some mu, sigma, c⟩ gens = .ok s1)
    (mu1 : Vec ℝ d) (hmu1 : s1.mu = some mu1) (zss : List (List (Vec ℝ d))) (hzss : Shared p zss)
    (hv : ∃ zs ∈ zss, ∃ x ∈ population p (mu1, s1.sigma) zs, ∃ y ∈ population p (mu1, s1.sigma) zs, f x ≠ f y) :
    ∃ s2 mu2, pgpeDistRun ClipUp.ascent sort p weighted f ⟨some mu, sigma, c⟩ (gens ++ [zss]) = .ok s2 ∧ s2.mu = some mu2 ∧ StrictlyBetter p.sense (f mu2) (f mu1) := by
  obtain ⟨a, b, hf⟩ := hf
  obtain ⟨g, hg, -, hpos⟩ := dist_forward hs p weighted hf (mu1, s1.sigma) zss hzss.1 (shared_rankable hm f _ hzss)
  obtain ⟨s2, mu2, e2, h2, h3⟩ := clipup_informative (addSpread p.lrSigma) hf hc h1 h2 mu sigma gens (fun zss h => shared_forward hs p hm weighted hf zss (hz zss h)) s1 hrun mu1 hmu1 zss g hg (hpos hv)
  refine ⟨s2, mu2, ?_, h2, h3⟩
  unfold pgpeDistRun at hrun ⊢
  rw [optRun_append, hrun]
  simp only [Except.bind, optRun, e2]

/-- **C177 for SGD.** -/
theorem C177_sgd_run {sort : Sorter ℝ} (hs : SorterSpec sort) (p : Pgpe) (hm : p.method = .nes ∨ p.method = .centered ∨ p.method = .linear) (weighted : Bool) {f : Vec ℝ d → ℝ} (hf : Linear f)
    {stepsize : ℝ} (h0 : 0 ≤ stepsize) {momentum dampening : Option ℝ} (h1 : ∀ m, momentum = some m → 0 ≤ m) (h2 : ∀ x, dampening = some x → x ≤ 1) (nesterov : Option Bool) (mu sigma : Vec ℝ d)
    (earlier later : List (List (List (Vec ℝ d)))) (hz : ∀ zss ∈ earlier ++ later, Shared p zss) :
    ∃ s1 s2 mu1 mu2, pgpeDistRun sgdAscent sort p weighted f ⟨some mu, sigma, SGD.create d stepsize momentum dampening nesterov⟩ earlier = .ok s1 ∧
      pgpeDistRun sgdAscent sort p weighted f ⟨some mu, sigma, SGD.create d stepsize momentum dampening nesterov⟩ (earlier ++ later) = .ok s2 ∧
      s1.mu = some mu1 ∧ s2.mu = some mu2 ∧ NotWorse p.sense (f mu2) (f mu1) := by
  obtain ⟨a, b, hf⟩ := hf
  obtain ⟨s1, s2, e1, e2, hw⟩ := two_times (addSpread p.lrSigma) hf (Good := ForwardSGD a p.sense) (sgd_good a p.sense) earlier later (fun zss h => shared_forward hs p hm weighted hf zss (hz zss h))
    ⟨some mu, sigma, SGD.create d stepsize momentum dampening nesterov⟩ fun _ _ => sgd_created a p.sense h0 h1 h2 nesterov
  obtain ⟨mu2, hmu2⟩ := Option.ne_none_iff_exists'.mp (stays_alive (by simp [sgdAscent]) (addSpread p.lrSigma) _ _ s2 (by simp) e2)
  obtain ⟨mu1, hmu1, hw⟩ := hw mu2 hmu2
  exact ⟨s1, s2, mu1, mu2, e1, e2, hmu1, hmu2, hw⟩

/-! ### Raw fitnesses: the same centers as without actors -/

theorem raw_gradient (sort : Sorter ℝ) {p : Pgpe} (hp : SphereConvergence.RawMirrored p) (f : Vec ℝ d → ℝ) (s : Vec ℝ d × Vec ℝ d) :
    ∃ F : Vec ℝ d → Vec ℝ d, ∀ zs, ∃ g, pgpeGradients sort p f s zs = .ok g ∧ ∀ j, g.mu j = (zs.map fun z => F z j).sum / (zs.length : ℝ) := by
  refine ⟨fun z j => sgn p.sense * (f (fun j => s.1 j + s.2 j * z j) - f fun j => s.1 j - s.2 j * z j) / 2 * (s.2 j * z j), fun zs => ?_⟩
  obtain ⟨g', h⟩ := SphereConvergence.gen_center sort (p := { p with lrMu := 1 }) ⟨hp.symmetric, hp.raw, hp.perDirection⟩ f s zs.get
  rw [List.ofFn_get, pgpeGen_gradients] at h
  have e' : pgpeGradients sort { p with lrMu := 1 } f s zs = pgpeGradients sort p f s zs := rfl
  rw [e'] at h
  cases hg : pgpeGradients sort p f s zs with
  | error x => rw [hg] at h; cases h
  | ok g =>
    rw [hg] at h
    injection h with h
    refine ⟨g, rfl, fun j => ?_⟩
    have := congrFun (congrArg Prod.fst h) j
    simp only [updateSeparable, one_mul, add_right_inj] at this
    rw [this]
    congr 1
    conv_rhs => rw [← List.ofFn_get zs, List.map_ofFn, List.sum_ofFn]
    rfl

/-- **C177, raw fitnesses.** With mirrored solutions, raw fitnesses and gradients divided by the number of directions, the center of a distributed generation is that of a local generation with all the draws, if the gradients are
weighted by the numbers of solutions or all actors have equally many. So what C175 says of local searches with a fixed spread holds for distributed ones. -/
theorem C177_raw_same (sort : Sorter ℝ) {p : Pgpe} (hp : SphereConvergence.RawMirrored p) (weighted : Bool) (f : Vec ℝ d → ℝ) (s : Vec ℝ d × Vec ℝ d) (zss : List (List (Vec ℝ d))) (hne : zss ≠ []) (hz : ∀ zs ∈ zss, zs ≠ [])
    (hw : weighted = true ∨ ∃ n, ∀ zs ∈ zss, zs.length = n) :
    ∃ g g', distGradients sort p weighted f s zss = .ok g ∧ pgpeGradients sort p f s zss.flatten = .ok g' ∧ g.mu = g'.mu := by
  obtain ⟨F, hF⟩ := raw_gradient sort hp f s
  choose G hG1 hG2 using hF
  obtain ⟨w, hwt, he⟩ := distGradients_eq weighted hne (G := G) fun zs h => ⟨hz zs h, hG1 zs⟩
  refine ⟨_, _, he, hG1 zss.flatten, ?_⟩
  funext j
  rw [hG2]
  dsimp only
  have hflat : zss.flatten.length ≠ 0 := by
    obtain ⟨zs, hzs⟩ := List.exists_mem_of_ne_nil _ hne
    obtain ⟨x, hx⟩ := List.exists_mem_of_ne_nil _ (hz zs hzs)
    exact (List.length_pos_of_mem (List.mem_flatten.mpr ⟨zs, hzs, hx⟩)).ne'
  have hflat' : (zss.flatten.length : ℝ) ≠ 0 := by exact_mod_cast hflat
  have hterm : ∀ zs ∈ zss, w zs * (G zs).mu j = (zs.map fun z => F z j).sum / (zss.flatten.length : ℝ) := by
    intro zs hzs
    have hl : (zs.length : ℝ) ≠ 0 := by exact_mod_cast (List.length_pos_iff.mpr (hz zs hzs)).ne'
    have hwz : w zs = (zs.length : ℝ) / (zss.flatten.length : ℝ) := by
      rw [(hwt zs hzs).2]
      by_cases h : weighted = true
      · rw [if_pos h]
      · rw [if_neg h]
        obtain ⟨n, hn⟩ := hw.resolve_left h
        have : zss.flatten.length = zss.length * n := by
          rw [List.length_flatten, List.map_congr_left (g := fun _ => n) hn]
          simp
        have hn0 : (n : ℝ) ≠ 0 := by rw [← hn zs hzs]; exact hl
        have hz0 : (zss.length : ℝ) ≠ 0 := by exact_mod_cast (List.length_pos_iff.mpr hne).ne'
        rw [this, hn zs hzs, Nat.cast_mul]
        field_simp
    rw [hwz, hG2]
    field_simp
  rw [List.map_congr_left hterm]
  have : ∀ l : List (List (Vec ℝ d)), (l.map fun zs => (zs.map fun z => F z j).sum / (zss.flatten.length : ℝ)).sum = (l.flatten.map fun z => F z j).sum / (zss.flatten.length : ℝ) := by
    intro l
    induction l with
    | nil => simp
    | cons x xs ih => rw [List.map_cons, List.sum_cons, ih]; simp [add_div]
  exact this zss

/-- **C177, raw fitnesses, whole runs**, with a fixed spread. -/
theorem C177_raw_run (sort : Sorter ℝ) {p : Pgpe} (hp : SphereConvergence.RawMirrored p) (h0 : p.lrSigma = 0) (f : Vec ℝ d → ℝ) (mu sigma : Vec ℝ d) (gens : List (List (List (Vec ℝ d))))
    (hz : ∀ zss ∈ gens, zss ≠ [] ∧ ∀ zs ∈ zss, zs ≠ []) :
    ∃ mu', pgpeDistRun (plainAscent p.lrMu) sort p true f ⟨some mu, sigma, ()⟩ gens = .ok ⟨some mu', sigma, ()⟩ ∧ pgpeRun sort p f (mu, sigma) (gens.map List.flatten) = .ok (mu', sigma) := by
  induction gens generalizing mu with
  | nil => exact ⟨mu, rfl, rfl⟩
  | cons zss rest ih =>
    obtain ⟨hne, hall⟩ := hz zss (by simp)
    obtain ⟨g, g', e1, e2, e3⟩ := C177_raw_same sort hp true f (mu, sigma) zss hne hall (.inl rfl)
    obtain ⟨mu', r1, r2⟩ := ih (fun j => mu j + p.lrMu * g.mu j) fun zss h => hz zss (by simp [h])
    refine ⟨mu', ?_, ?_⟩
    · unfold pgpeDistRun at r1 ⊢
      rw [optRun, optGen]
      have hsp : addSpread p.lrSigma sigma g.sigma = sigma := by funext j; simp [addSpread, h0]
      simp only [e1, Except.bind, plainAscent, hsp, Optimizers.addVec] at r1 ⊢
      exact r1
    · rw [List.map_cons, pgpeRun, pgpeGen_gradients, e2]
      simp only [Except.map, Except.bind, updateSeparable, h0, zero_mul, add_zero, ← e3]
      exact r2

/-! ### The hypotheses can be met -/

example (gens : List (List (List (Vec ℝ 2)))) (h : ∀ zss ∈ gens, zss.length = 4 ∧ ∀ zs ∈ zss, zs.length = 5) : ∃ s' mu',
    pgpeDistRun (plainAscent (1/10)) exampleSorter ⟨true, some .numDirections, some .numDirections, .centered, .min, 1/10, 1/10⟩ false exFit ⟨some 0, 1, ()⟩ gens = .ok s' ∧ s'.mu = some mu' ∧ exFit mu' ≤ 5 := by
  obtain ⟨s1, s2, mu1, mu2, h1, h2, h3, h4, h5⟩ := C177_run exampleSorter_spec ⟨true, some .numDirections, some .numDirections, .centered, .min, 1/10, 1/10⟩ (.inr (.inl rfl)) false (lr := 1/10) (by norm_num) exFit_linear 0 1 [] gens
    (fun zss hz => ⟨by
      have := (h zss (by simpa using hz)).1
      rintro rfl
      simp at this, fun zs hzs => by simp [(h zss (by simpa using hz)).2 zs hzs]⟩)
  injection h1 with h1
  rw [← h1] at h3
  injection h3 with h3
  rw [← h3] at h5
  have e5 : exFit (0 : Vec ℝ 2) = 5 := by simp [exFit]
  exact ⟨s2, mu2, h2, h4, by simpa only [NotWorse, e5] using h5⟩

example : ∃ c s' mu', ClipUp.create 2 (1/10) (9/10) none = .ok c ∧
    pgpeDistRun ClipUp.ascent exampleSorter ⟨true, some .numDirections, some .numDirections, .centered, .min, 1/10, 1/10⟩ true exFit ⟨some 0, 1, c⟩ [[[![1, 0], ![0, 1]], [![1, 1], ![0, 1], ![2, 0]]]] = .ok s' ∧
    s'.mu = some mu' ∧ exFit mu' < 5 := by
  obtain ⟨c, hc⟩ := exClipUp
  obtain ⟨s2, mu2, h1, h2, h3⟩ := C177_clipup_better exampleSorter_spec ⟨true, some .numDirections, some .numDirections, .centered, .min, 1/10, 1/10⟩ (.inr (.inl rfl)) true exFit_linear hc (by norm_num) (by simp) 0 1 [] (by simp)
    ⟨some 0, 1, c⟩ rfl 0 rfl [[![1, 0], ![0, 1]], [![1, 1], ![0, 1], ![2, 0]]] ⟨by simp, by simp⟩
    ⟨[![1, 0], ![0, 1]], by simp, ![1, 0], by simp [population, funext_iff, Fin.forall_fin_two], ![0, 1], by simp [population, funext_iff, Fin.forall_fin_two], by norm_num [exFit]⟩
  have e5 : exFit (0 : Vec ℝ 2) = 5 := by simp [exFit]
  exact ⟨c, s2, mu2, hc, h1, h2, by simpa only [StrictlyBetter, e5] using h3⟩

example : ∃ c, ClipUp.create 2 (1/10) (9/10) none = .ok c ∧ Shared ⟨true, none, none, .centered, .min, 1/10, 1/10⟩ [[![1, 0]], [![1, 1], (![0, 1] : Vec ℝ 2)]] := by
  obtain ⟨c, hc⟩ := exClipUp
  exact ⟨c, hc, by simp, by simp⟩

end EvoTorch.LinearProgress
