import Verif.Props.LinearProgressDist
/-!
C179: SNES with an optimiser, and distributed SNES and CEM, on linear fitness functions.
-/
namespace EvoTorch.LinearProgress
open EvoTorch.Generations EvoTorch.Distribution
open EvoTorch.BestWorst (Sense)
open EvoTorch.Selection (Sorter SorterSpec NotWorse exampleSorter exampleSorter_spec)
open EvoTorch.Optimizers (NVec ClipUp SGD Adam)
open EvoTorch.GradSampling (Answer)
open EvoTorch.NeutralSearch (numElites)

variable {d : ℕ} {ω : Type}

/-- The gradient of SNES does not point to worse places. -/
theorem snes_forward {sort : Sorter ℝ} (hs : SorterSpec sort) {m : Method} (hm : m = .nes ∨ m = .centered) {sense : Sense} {f : Vec ℝ d → ℝ} {a : Vec ℝ d} {b : ℝ} (hf : ∀ x, f x = b + ∑ j, a j * x j) (s : Vec ℝ d × Vec ℝ d)
    (zs : List (Vec ℝ d)) (h2 : 2 ≤ zs.length) :
    ∃ g, snesGradients sort m sense f s zs = .ok g ∧ 0 ≤ gain a sense g.mu ∧ ((∃ x ∈ sample zs s, ∃ y ∈ sample zs s, f x ≠ f y) → 0 < gain a sense g.mu) := by
  obtain ⟨h1, h3⟩ := C174_snes hs (m := m) (by tauto) sense (zero_le_one (α := ℝ)) 0 ⟨a, b, hf⟩ s zs (rankable_of (by tauto) (by rw [sample_eq]; simpa using h2))
  refine ⟨_, rfl, (gain_moves hf sense s.1 _).1.mp ?_, fun hv => (gain_moves hf sense s.1 _).2.mp ?_⟩
  · simpa only [snesGen, one_mul] using h1
  · simpa only [snesGen, one_mul] using h3 one_pos hv

/-- A distributed generation with at least two solutions for each actor. -/
def SharedSnes (zss : List (List (Vec ℝ d))) : Prop := zss ≠ [] ∧ ∀ zs ∈ zss, 2 ≤ zs.length

theorem snes_dist_forward {sort : Sorter ℝ} (hs : SorterSpec sort) {m : Method} (hm : m = .nes ∨ m = .centered) {sense : Sense} (weighted : Bool) {f : Vec ℝ d → ℝ} {a : Vec ℝ d} {b : ℝ} (hf : ∀ x, f x = b + ∑ j, a j * x j)
    (s : Vec ℝ d × Vec ℝ d) (zss : List (List (Vec ℝ d))) (h : SharedSnes zss) :
    ∃ g, snesDistGradients sort m sense weighted f s zss = .ok g ∧ 0 ≤ gain a sense g.mu ∧ ((∃ zs ∈ zss, ∃ x ∈ sample zs s, ∃ y ∈ sample zs s, f x ≠ f y) → 0 < gain a sense g.mu) := by
  have hall : ∀ zs, ∃ g, zs ∈ zss → snesGradients sort m sense f s zs = .ok g ∧ 0 ≤ gain a sense g.mu ∧ ((∃ x ∈ sample zs s, ∃ y ∈ sample zs s, f x ≠ f y) → 0 < gain a sense g.mu) := by
    intro zs
    by_cases hz : zs ∈ zss
    · obtain ⟨g, hg⟩ := snes_forward hs hm hf s zs (h.2 zs hz)
      exact ⟨g, fun _ => hg⟩
    · exact ⟨⟨0, 0⟩, fun h' => absurd h' hz⟩
  choose G hG using hall
  obtain ⟨w, hw, he⟩ := pooled_eq weighted h.1 (f := f) (P := fun zs => sample zs s) (G := G) (answer := fun zs => (snesGradients sort m sense f s zs).map (answerWith f (sample zs s)))
    (fun zs hz => ⟨fun h0 => by
      have := h.2 zs hz
      rw [h0] at this
      simp at this, by rw [(hG zs hz).1]; rfl⟩) one_pos (fun zs => by rw [sample_eq]; simp)
  have hnn : ∀ x ∈ zss.map fun zs => w zs * gain a sense (G zs).mu, 0 ≤ x := by
    intro x hx
    obtain ⟨zs, hzs, rfl⟩ := List.mem_map.mp hx
    exact mul_nonneg (hw zs hzs).1.le (hG zs hzs).2.1
  refine ⟨_, he, ?_, fun ⟨zs, hzs, hv⟩ => ?_⟩
  · rw [gain_list a sense w (fun zs => (G zs).mu)]
    exact List.sum_nonneg hnn
  · rw [gain_list a sense w (fun zs => (G zs).mu)]
    have hpos : 0 < w zs * gain a sense (G zs).mu := mul_pos (hw zs hzs).1 ((hG zs hzs).2.2 hv)
    exact lt_of_lt_of_le hpos (List.single_le_sum hnn _ (List.mem_map.mpr ⟨zs, hzs, rfl⟩))

/-! ### SNES with an optimiser -/

/-- **C179 for SNES with ClipUp.** On a linear fitness function the center is at no time worse than at an earlier time. -/
theorem C179_snes_clipup_run {sort : Sorter ℝ} (hs : SorterSpec sort) {m : Method} (hm : m = .nes ∨ m = .centered) (sense : Sense) (lrSigma : ℝ) {f : Vec ℝ d → ℝ} (hf : Linear f)
    {stepsize momentum : ℝ} {maxSpeed : Option ℝ} {c : ClipUp d} (hc : ClipUp.create d stepsize momentum maxSpeed = .ok c) (mu sigma : Vec ℝ d) (earlier later : List (List (Vec ℝ d))) (hz : ∀ zs ∈ earlier ++ later, 2 ≤ zs.length) :
    ∃ s1 s2, snesOptRun ClipUp.ascent sort m sense lrSigma f ⟨some mu, sigma, c⟩ earlier = .ok s1 ∧ snesOptRun ClipUp.ascent sort m sense lrSigma f ⟨some mu, sigma, c⟩ (earlier ++ later) = .ok s2 ∧
      ∀ mu2, s2.mu = some mu2 → ∃ mu1, s1.mu = some mu1 ∧ NotWorse sense (f mu2) (f mu1) := by
  obtain ⟨a, b, hf⟩ := hf
  exact two_times _ hf (Good := ForwardClipUp a sense) (fun o g ho hg => (clipup_ascent a sense ho hg).1) earlier later (fun zs h s => by
    obtain ⟨g, hg, h0, -⟩ := snes_forward hs hm (sense := sense) hf s zs (hz zs h)
    exact ⟨g, hg, h0⟩) _ fun _ _ => (created hc a sense).1

/-- **C179 for SNES with SGD.** -/
theorem C179_snes_sgd_run {sort : Sorter ℝ} (hs : SorterSpec sort) {m : Method} (hm : m = .nes ∨ m = .centered) (sense : Sense) (lrSigma : ℝ) {f : Vec ℝ d → ℝ} (hf : Linear f)
    {stepsize : ℝ} (h0 : 0 ≤ stepsize) {momentum dampening : Option ℝ} (h1 : ∀ m, momentum = some m → 0 ≤ m) (h2 : ∀ x, dampening = some x → x ≤ 1) (nesterov : Option Bool) (mu sigma : Vec ℝ d)
    (earlier later : List (List (Vec ℝ d))) (hz : ∀ zs ∈ earlier ++ later, 2 ≤ zs.length) :
    ∃ s1 s2 mu1 mu2, snesOptRun sgdAscent sort m sense lrSigma f ⟨some mu, sigma, SGD.create d stepsize momentum dampening nesterov⟩ earlier = .ok s1 ∧
      snesOptRun sgdAscent sort m sense lrSigma f ⟨some mu, sigma, SGD.create d stepsize momentum dampening nesterov⟩ (earlier ++ later) = .ok s2 ∧
      s1.mu = some mu1 ∧ s2.mu = some mu2 ∧ NotWorse sense (f mu2) (f mu1) := by
  obtain ⟨a, b, hf⟩ := hf
  obtain ⟨s1, s2, e1, e2, hw⟩ := two_times (ExpGaussian.snesUpdateSigma lrSigma) hf (Good := ForwardSGD a sense) (sgd_good a sense) earlier later (fun zs h s => by
    obtain ⟨g, hg, h0, -⟩ := snes_forward hs hm (sense := sense) hf s zs (hz zs h)
    exact ⟨g, hg, h0⟩) ⟨some mu, sigma, SGD.create d stepsize momentum dampening nesterov⟩ fun _ _ => sgd_created a sense h0 h1 h2 nesterov
  obtain ⟨mu2, hmu2⟩ := Option.ne_none_iff_exists'.mp (stays_alive (by simp [sgdAscent]) _ _ _ s2 (by simp) e2)
  obtain ⟨mu1, hmu1, hw⟩ := hw mu2 hmu2
  exact ⟨s1, s2, mu1, mu2, e1, e2, hmu1, hmu2, hw⟩

/-! ### Distributed SNES -/

/-- **C179 for distributed SNES**, without an optimiser. -/
theorem C179_snes_dist_run {sort : Sorter ℝ} (hs : SorterSpec sort) {m : Method} (hm : m = .nes ∨ m = .centered) (sense : Sense) (weighted : Bool) {lr : ℝ} (hlr : 0 ≤ lr) (lrSigma : ℝ) {f : Vec ℝ d → ℝ} (hf : Linear f)
    (mu sigma : Vec ℝ d) (earlier later : List (List (List (Vec ℝ d)))) (hz : ∀ zss ∈ earlier ++ later, SharedSnes zss) :
    ∃ s1 s2 mu1 mu2, snesDistRun (plainAscent lr) sort m sense lrSigma weighted f ⟨some mu, sigma, ()⟩ earlier = .ok s1 ∧ snesDistRun (plainAscent lr) sort m sense lrSigma weighted f ⟨some mu, sigma, ()⟩ (earlier ++ later) = .ok s2 ∧
      s1.mu = some mu1 ∧ s2.mu = some mu2 ∧ NotWorse sense (f mu2) (f mu1) := by
  obtain ⟨a, b, hf⟩ := hf
  obtain ⟨s1, s2, e1, e2, hw⟩ := two_times (sense := sense) (ascent := plainAscent lr) (ExpGaussian.snesUpdateSigma lrSigma) hf (Good := fun _ => True) (fun o g _ hg v hv => by
      injection hv with hv
      refine ⟨trivial, ?_⟩
      rw [← hv, gain_smul]
      exact mul_nonneg hlr hg) earlier later (fun zss h s => by
    obtain ⟨g, hg, h0, -⟩ := snes_dist_forward hs hm (sense := sense) weighted hf s zss (hz zss h)
    exact ⟨g, hg, h0⟩) ⟨some mu, sigma, ()⟩ fun _ _ => trivial
  obtain ⟨mu2, hmu2⟩ := Option.ne_none_iff_exists'.mp (stays_alive (by simp [plainAscent]) _ _ _ s2 (by simp) e2)
  obtain ⟨mu1, hmu1, hw⟩ := hw mu2 hmu2
  exact ⟨s1, s2, mu1, mu2, e1, e2, hmu1, hmu2, hw⟩

/-- **C179 for distributed SNES, real progress.** It is enough that the solutions of one actor are not all equally good. -/
theorem C179_snes_dist_better {sort : Sorter ℝ} (hs : SorterSpec sort) {m : Method} (hm : m = .nes ∨ m = .centered) (sense : Sense) (weighted : Bool) {lr : ℝ} (hlr : 0 < lr) (lrSigma : ℝ) {f : Vec ℝ d → ℝ} (hf : Linear f)
    (mu sigma : Vec ℝ d) (zss : List (List (Vec ℝ d))) (hz : SharedSnes zss) (hv : ∃ zs ∈ zss, ∃ x ∈ sample zs (mu, sigma), ∃ y ∈ sample zs (mu, sigma), f x ≠ f y) :
    ∃ s' mu', snesDistRun (plainAscent lr) sort m sense lrSigma weighted f ⟨some mu, sigma, ()⟩ [zss] = .ok s' ∧ s'.mu = some mu' ∧ StrictlyBetter sense (f mu') (f mu) := by
  obtain ⟨a, b, hf⟩ := hf
  obtain ⟨g, hg, -, hpos⟩ := snes_dist_forward hs hm (sense := sense) weighted hf (mu, sigma) zss hz
  refine ⟨⟨some fun j => mu j + lr * g.mu j, ExpGaussian.snesUpdateSigma lrSigma sigma g.sigma, ()⟩, _, ?_, rfl, (gain_moves hf sense mu fun j => lr * g.mu j).2.mpr ?_⟩
  · simp only [snesDistRun, optRun, optGen, hg, Except.bind, plainAscent, Optimizers.addVec]
  · rw [gain_smul]
    exact mul_pos hlr (hpos hv)

/-- **C179 for distributed SNES with ClipUp.** -/
theorem C179_snes_dist_clipup_run {sort : Sorter ℝ} (hs : SorterSpec sort) {m : Method} (hm : m = .nes ∨ m = .centered) (sense : Sense) (weighted : Bool) (lrSigma : ℝ) {f : Vec ℝ d → ℝ} (hf : Linear f)
    {stepsize momentum : ℝ} {maxSpeed : Option ℝ} {c : ClipUp d} (hc : ClipUp.create d stepsize momentum maxSpeed = .ok c) (mu sigma : Vec ℝ d) (earlier later : List (List (List (Vec ℝ d)))) (hz : ∀ zss ∈ earlier ++ later, SharedSnes zss) :
    ∃ s1 s2, snesDistRun ClipUp.ascent sort m sense lrSigma weighted f ⟨some mu, sigma, c⟩ earlier = .ok s1 ∧ snesDistRun ClipUp.ascent sort m sense lrSigma weighted f ⟨some mu, sigma, c⟩ (earlier ++ later) = .ok s2 ∧
      ∀ mu2, s2.mu = some mu2 → ∃ mu1, s1.mu = some mu1 ∧ NotWorse sense (f mu2) (f mu1) := by
  obtain ⟨a, b, hf⟩ := hf
  exact two_times _ hf (Good := ForwardClipUp a sense) (fun o g ho hg => (clipup_ascent a sense ho hg).1) earlier later (fun zss h s => by
    obtain ⟨g, hg, h0, -⟩ := snes_dist_forward hs hm (sense := sense) weighted hf s zss (hz zss h)
    exact ⟨g, hg, h0⟩) _ fun _ _ => (created hc a sense).1

/-! ### Distributed CEM -/

theorem linear_pool {α : Type} {f : Vec ℝ d → ℝ} {a : Vec ℝ d} {b : ℝ} (hf : ∀ x, f x = b + ∑ j, a j * x j) (mu : Vec ℝ d) (w : α → ℝ) (v : α → Vec ℝ d) (l : List α) :
    (l.map fun x => w x * f fun j => mu j + v x j).sum = (l.map w).sum * f mu + ∑ j, a j * (l.map fun x => w x * v x j).sum := by
  induction l with
  | nil => simp
  | cons x xs ih =>
    simp only [List.map_cons, List.sum_cons, ih]
    simp only [hf, mul_add, Finset.sum_add_distrib]
    have : ∑ j, a j * (w x * v x j) = w x * ∑ j, a j * v x j := by
      rw [Finset.mul_sum]
      exact Finset.sum_congr rfl fun j _ => by ring
    rw [this]
    ring

theorem pool_notWorse {α : Type} {sense : Sense} {w A B : α → ℝ} (l : List α) (hw : ∀ x ∈ l, 0 ≤ w x) (h : ∀ x ∈ l, NotWorse sense (A x) (B x)) : NotWorse sense (l.map fun x => w x * A x).sum (l.map fun x => w x * B x).sum := by
  cases sense
  · exact List.sum_le_sum fun x hx => mul_le_mul_of_nonneg_left (h x hx) (hw x hx)
  · exact List.sum_le_sum fun x hx => mul_le_mul_of_nonneg_left (h x hx) (hw x hx)

/-- **C179 for distributed CEM.** The new center, made from the best solutions of each actor, is not worse on a linear fitness function than the average of all solutions of the generation, if the gradients are weighted by the
numbers of solutions or all actors have equally many. -/
theorem C179_cem_dist {sort : Sorter ℝ} (hs : SorterSpec sort) {ratio : ℝ} (h0 : 0 ≤ ratio) (h1 : ratio ≤ 1) (sense : Sense) (weighted : Bool) {f : Vec ℝ d → ℝ} (hf : Linear f) (s : Vec ℝ d × Vec ℝ d) (zss : List (List (Vec ℝ d)))
    (hne : zss ≠ []) (hk : ∀ zs ∈ zss, 1 ≤ numElites zs.length ratio) (hw : weighted = true ∨ ∃ n, ∀ zs ∈ zss, zs.length = n) :
    ∃ s', cemDistGen sort ratio sense weighted f s zss = .ok s' ∧ NotWorse sense (f s'.1) (((zss.flatMap fun zs => sample zs s).map f).sum / (zss.flatten.length : ℝ)) := by
  have hlen : ∀ zs ∈ zss, zs ≠ [] := by
    intro zs hz h
    have := hk zs hz
    rw [h] at this
    simp [numElites] at this
  obtain ⟨w, hwt, he⟩ := pooled_eq weighted hne (f := f) (P := fun zs => sample zs s) (G := cemGradients sort ratio sense f s) (answer := fun zs => .ok (answerWith f (sample zs s) (cemGradients sort ratio sense f s zs)))
    (fun zs hz => ⟨hlen zs hz, rfl⟩) one_pos (fun zs => by rw [sample_eq]; simp)
  have hflat : (zss.flatten.length : ℝ) ≠ 0 := by
    obtain ⟨zs, hzs⟩ := List.exists_mem_of_ne_nil _ hne
    obtain ⟨x, hx⟩ := List.exists_mem_of_ne_nil _ (hlen zs hzs)
    exact_mod_cast (List.length_pos_of_mem (List.mem_flatten.mpr ⟨zs, hzs, hx⟩)).ne'
  have hwz : ∀ zs ∈ zss, w zs = (zs.length : ℝ) / (zss.flatten.length : ℝ) := by
    intro zs hzs
    have hl : (zs.length : ℝ) ≠ 0 := by exact_mod_cast (List.length_pos_iff.mpr (hlen zs hzs)).ne'
    rw [(hwt zs hzs).2]
    by_cases h : weighted = true
    · rw [if_pos h]
    · rw [if_neg h]
      obtain ⟨n, hn⟩ := hw.resolve_left h
      have : zss.flatten.length = zss.length * n := by
        rw [List.length_flatten, List.map_congr_left (g := fun _ => n) hn]
        simp
      have hn0 : (n : ℝ) ≠ 0 := by rw [← hn zs hzs]; exact hl
      have hz0 : (zss.length : ℝ) ≠ 0 := by exact_mod_cast (List.length_pos_iff.mpr hne).ne'
      rw [this, hn zs hzs, Nat.cast_mul]
      field_simp
  have hsumw : (zss.map w).sum = 1 := by
    rw [List.map_congr_left hwz]
    have : ∀ l : List (List (Vec ℝ d)), (l.map fun zs => (zs.length : ℝ) / (zss.flatten.length : ℝ)).sum = (l.flatten.length : ℝ) / (zss.flatten.length : ℝ) := by
      intro l
      induction l with
      | nil => simp
      | cons x xs ih => rw [List.map_cons, List.sum_cons, ih, List.flatten_cons, List.length_append, Nat.cast_add, add_div]
    rw [this, div_self hflat]
  refine ⟨_, by rw [cemDistGen, he]; rfl, ?_⟩
  obtain ⟨a, b, hf'⟩ := hf
  have hpool := linear_pool hf' s.1 w (fun zs => (cemGradients sort ratio sense f s zs).mu) zss
  have hnew : f (updateSeparable 1 1 s.1 s.2 ⟨fun j => (zss.map fun zs => w zs * (cemGradients sort ratio sense f s zs).mu j).sum, fun j => (zss.map fun zs => w zs * (cemGradients sort ratio sense f s zs).sigma j).sum⟩).1 =
      (zss.map fun zs => w zs * f fun j => s.1 j + (cemGradients sort ratio sense f s zs).mu j).sum := by
    rw [hpool, hsumw, one_mul]
    simp only [updateSeparable, one_mul, hf', mul_add, Finset.sum_add_distrib]
    ring
  have hmean : ((zss.flatMap fun zs => sample zs s).map f).sum / (zss.flatten.length : ℝ) = (zss.map fun zs => w zs * (((sample zs s).map f).sum / (zs.length : ℝ))).sum := by
    have e : ∀ zs ∈ zss, w zs * (((sample zs s).map f).sum / (zs.length : ℝ)) = ((sample zs s).map f).sum / (zss.flatten.length : ℝ) := by
      intro zs hzs
      have hl : (zs.length : ℝ) ≠ 0 := by exact_mod_cast (List.length_pos_iff.mpr (hlen zs hzs)).ne'
      rw [hwz zs hzs]
      field_simp
    rw [List.map_congr_left e]
    have : ∀ l : List (List (Vec ℝ d)), ((l.flatMap fun zs => sample zs s).map f).sum / (zss.flatten.length : ℝ) = (l.map fun zs => ((sample zs s).map f).sum / (zss.flatten.length : ℝ)).sum := by
      intro l
      induction l with
      | nil => simp
      | cons x xs ih => rw [List.map_cons, List.sum_cons, ← ih, List.flatMap_cons, List.map_append, List.sum_append, add_div]
    exact this zss
  rw [hnew, hmean]
  refine pool_notWorse zss (fun zs hz => (hwt zs hz).1.le) fun zs hz => ?_
  have := (C174_cem hs h0 h1 sense ⟨a, b, hf'⟩ s zs (hk zs hz)).1
  simpa only [cemGradients, cemGen, cemUpdate, updateSeparable, one_mul] using this

theorem cemElites_eq {sort : Sorter ℝ} (hs : SorterSpec sort) {ratio : ℝ} (h0 : 0 ≤ ratio) (h1 : ratio ≤ 1) (sense : Sense) (f : Vec ℝ d → ℝ) (s : Vec ℝ d × Vec ℝ d) (zs : List (Vec ℝ d)) :
    cemElites sort ratio sense f s zs = numElites zs.length ratio := by
  have hl : (sample zs s).length = zs.length := by rw [sample_eq]; simp
  have hraw : (Ranking.raw (decide (sense = .max)) ((sample zs s).map f)).length = zs.length := by rw [SphereConvergence.raw_eq]; simp [hl]
  have hp := (hs (Ranking.raw (decide (sense = .max)) ((sample zs s).map f))).2.1
  rw [hraw] at hp
  have hg : ∀ idx : List ℕ, (∀ i ∈ idx, i < zs.length) → (gather (sample zs s) idx).length = idx.length := by
    intro idx
    induction idx with
    | nil => intro _; rfl
    | cons i idx ih =>
      intro h
      have hi : i < (sample zs s).length := by rw [hl]; exact h i (by simp)
      have := ih fun j hj => h j (by simp [hj])
      unfold gather at this ⊢
      simp only [List.filterMap_cons, List.getElem?_eq_getElem hi, List.length_cons, this]
  have hle : numElites zs.length ratio ≤ zs.length := by
    have : ⌊(zs.length : ℝ) * ratio⌋ ≤ (zs.length : ℤ) := by
      rw [Int.floor_le_iff]
      push_cast
      have := mul_le_of_le_one_right (Nat.cast_nonneg (α := ℝ) zs.length) h1
      linarith
    have h3 : 0 ≤ ⌊(zs.length : ℝ) * ratio⌋ := Int.floor_nonneg.mpr (by positivity)
    simp only [numElites]
    omega
  rw [cemElites, elites, hl, hg _ fun i hi => List.mem_range.mp (hp.mem_iff.mp (List.mem_of_mem_take hi)), List.length_take, hp.length_eq, List.length_range]
  exact min_eq_left hle

/-- **C179 for distributed CEM: when there are numbers.** Center and standard deviations are numbers exactly if each actor has at least one, respectively two, elites among its own solutions. -/
theorem C179_cem_numbers {sort : Sorter ℝ} (hs : SorterSpec sort) {ratio : ℝ} (h0 : 0 ≤ ratio) (h1 : ratio ≤ 1) (sense : Sense) (weighted : Bool) (f : Vec ℝ d → ℝ) (s : Vec ℝ d × Vec ℝ d) (zss : List (List (Vec ℝ d)))
    (hne : zss ≠ []) (hz : ∀ zs ∈ zss, zs ≠ []) :
    ∃ s', cemDistGenNan sort ratio sense weighted f s zss = .ok s' ∧ (s'.1 ≠ none ↔ ∀ zs ∈ zss, 1 ≤ numElites zs.length ratio) ∧ (s'.2 ≠ none ↔ ∀ zs ∈ zss, 2 ≤ numElites zs.length ratio) := by
  obtain ⟨w, -, he⟩ := pooled_eq weighted hne (f := f) (P := fun zs => sample zs s) (G := cemGradients sort ratio sense f s) (answer := fun zs => .ok (answerWith f (sample zs s) (cemGradients sort ratio sense f s zs)))
    (fun zs h => ⟨hz zs h, rfl⟩) one_pos (fun zs => by rw [sample_eq]; simp)
  refine ⟨_, by rw [cemDistGenNan, cemDistGen, he]; rfl, ?_, ?_⟩
  · simp only [cemElites_eq hs h0 h1]
    split
    · next h =>
      simp only [List.any_eq_true, beq_iff_eq] at h
      obtain ⟨zs, hzs, h⟩ := h
      simp only [ne_eq, not_true_eq_false, false_iff, not_forall]
      exact ⟨zs, hzs, by omega⟩
    · next h =>
      simp only [List.any_eq_true, beq_iff_eq, not_exists, not_and] at h
      simp only [ne_eq, reduceCtorEq, not_false_eq_true, true_iff]
      exact fun zs hzs => Nat.one_le_iff_ne_zero.mpr (h zs hzs)
  · simp only [cemElites_eq hs h0 h1]
    split
    · next h =>
      simp only [List.any_eq_true, decide_eq_true_eq] at h
      obtain ⟨zs, hzs, h⟩ := h
      simp only [ne_eq, not_true_eq_false, false_iff, not_forall]
      exact ⟨zs, hzs, by omega⟩
    · next h =>
      simp only [List.any_eq_true, decide_eq_true_eq, not_exists, not_and] at h
      simp only [ne_eq, reduceCtorEq, not_false_eq_true, true_iff]
      intro zs hzs
      have := h zs hzs
      omega

/-- **C179 for distributed CEM: violated with few solutions for each actor.** 20 solutions of which the best tenth is taken: a search without actors has 2 elites and stays a search; with 4 actors each has none among its 5
solutions, and the center is NaN after the first generation. -/
theorem C179_cem_violated {sort : Sorter ℝ} (hs : SorterSpec sort) (sense : Sense) (weighted : Bool) (f : Vec ℝ d → ℝ) (s : Vec ℝ d × Vec ℝ d) (zss : List (List (Vec ℝ d))) (h4 : zss.length = 4) (h5 : ∀ zs ∈ zss, zs.length = 5) :
    (∃ s', cemDistGenNan sort (1 / 10) sense weighted f s [zss.flatten] = .ok s' ∧ s'.1 ≠ none ∧ s'.2 ≠ none) ∧ ∃ s', cemDistGenNan sort (1 / 10) sense weighted f s zss = .ok s' ∧ s'.1 = none := by
  have hl : zss.flatten.length = 20 := by rw [List.length_flatten, List.map_congr_left (g := fun _ => 5) h5]; simp [h4]
  constructor
  · obtain ⟨s', e, e1, e2⟩ := C179_cem_numbers hs (ratio := 1 / 10) (by norm_num) (by norm_num) sense weighted f s [zss.flatten] (by simp) (by
      simp only [List.mem_singleton, forall_eq]
      intro h
      rw [h] at hl
      simp at hl)
    have : numElites zss.flatten.length (1 / 10) = 2 := by rw [hl, numElites]; norm_num; rfl
    refine ⟨s', e, e1.mpr ?_, e2.mpr ?_⟩ <;> simp only [List.mem_singleton, forall_eq, this] <;> norm_num
  · obtain ⟨s', e, e1, -⟩ := C179_cem_numbers hs (ratio := 1 / 10) (by norm_num) (by norm_num) sense weighted f s zss (by rintro rfl; simp at h4) (fun zs hzs h => by
      have := h5 zs hzs
      rw [h] at this
      simp at this)
    refine ⟨s', e, ?_⟩
    by_contra hn
    obtain ⟨zs, hzs⟩ := List.exists_mem_of_ne_nil zss (by rintro rfl; simp at h4)
    have := e1.mp hn zs hzs
    rw [h5 zs hzs] at this
    norm_num [numElites] at this

/-! ### The hypotheses can be met -/

example (gens : List (List (List (Vec ℝ 2)))) (h : ∀ zss ∈ gens, zss.length = 4 ∧ ∀ zs ∈ zss, zs.length = 5) : ∃ s' mu',
    snesDistRun (plainAscent 1) exampleSorter .nes .min (1/10) false exFit ⟨some 0, 1, ()⟩ gens = .ok s' ∧ s'.mu = some mu' ∧ exFit mu' ≤ 5 := by
  obtain ⟨s1, s2, mu1, mu2, h1, h2, h3, h4, h5⟩ := C179_snes_dist_run exampleSorter_spec (.inl rfl) .min false (lr := 1) (by norm_num) (1/10) exFit_linear 0 1 [] gens
    (fun zss hz => ⟨by
      have := (h zss (by simpa using hz)).1
      rintro rfl
      simp at this, fun zs hzs => by simp [(h zss (by simpa using hz)).2 zs hzs]⟩)
  injection h1 with h1
  rw [← h1] at h3
  injection h3 with h3
  rw [← h3] at h5
  have e5 : exFit (0 : Vec ℝ 2) = 5 := by simp [exFit]
  exact ⟨s2, mu2, h2, h4, by simpa only [NotWorse, e5] using h5⟩

example : ∃ s' mu', snesDistRun (plainAscent 1) exampleSorter .nes .min (1/10) true exFit ⟨some 0, 1, ()⟩ [[[![1, 0], ![0, 1]], [![1, 1], ![0, 1], ![2, 0]]]] = .ok s' ∧ s'.mu = some mu' ∧ exFit mu' < 5 := by
  obtain ⟨s2, mu2, h1, h2, h3⟩ := C179_snes_dist_better exampleSorter_spec (.inl rfl) .min true (lr := 1) (by norm_num) (1/10) exFit_linear 0 1 [[![1, 0], ![0, 1]], [![1, 1], ![0, 1], ![2, 0]]] ⟨by simp, by simp⟩
    ⟨[![1, 0], ![0, 1]], by simp, ![1, 0], by simp [sample_eq, funext_iff, Fin.forall_fin_two], ![0, 1], by simp [sample_eq, funext_iff, Fin.forall_fin_two], by norm_num [exFit]⟩
  have e5 : exFit (0 : Vec ℝ 2) = 5 := by simp [exFit]
  exact ⟨s2, mu2, h1, h2, by simpa only [StrictlyBetter, e5] using h3⟩

example (zs1 zs2 : List (Vec ℝ 2)) (h1 : zs1.length = 4) (h2 : zs2.length = 6) : ∃ s', cemDistGen exampleSorter (1/2) .min true exFit (0, 1) [zs1, zs2] = .ok s' ∧
    NotWorse .min (exFit s'.1) ((([zs1, zs2].flatMap fun zs => sample zs (0, 1)).map exFit).sum / ([zs1, zs2].flatten.length : ℝ)) :=
  C179_cem_dist exampleSorter_spec (by norm_num) (by norm_num) .min true exFit_linear (0, 1) [zs1, zs2] (by simp) (by
    simp only [List.mem_cons, List.not_mem_nil, or_false, forall_eq_or_imp, forall_eq, h1, h2, numElites]
    norm_num) (.inl rfl)

end EvoTorch.LinearProgress
