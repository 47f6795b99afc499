import Verif.Props.LinearDivergence
import Verif.Props.LinearProgressDist
import Verif.Props.LinearProgressSnes
/-!
C180 and C181 for distributed searches: the draws of a generation are shared by actors, each of which ranks its own solutions, and their gradients are averaged.
-/
namespace EvoTorch.LinearProgress
open EvoTorch.Generations EvoTorch.Distribution EvoTorch.NeutralSearch MeasureTheory ProbabilityTheory
open EvoTorch.GaussianScore (draws)
open EvoTorch.BestWorst (Sense)
open EvoTorch.Selection (Sorter SorterSpec NotWorse exampleSorter exampleSorter_spec)
open EvoTorch.Optimizers (NVec ClipUp)
open EvoTorch.NeverNan (Distinguished ByOrder allDraws always size pairs_length coefs generic weightedSum_eq differences differences_ne run_alive limit_positive)

variable {n d : ℕ}

/-! ### Sharing out the draws -/

/-- The draws of a generation, shared out: the first actor has the first of them, and so on. -/
def share {α : Type} : List ℕ → List α → List (List α)
  | [], _ => []
  | m :: ms, l => l.take m :: share ms (l.drop m)

theorem share_flatten {α : Type} (sizes : List ℕ) (l : List α) (h : sizes.sum = l.length) : (share sizes l).flatten = l := by
  induction sizes generalizing l with
  | nil => simpa [share, eq_comm] using h
  | cons m ms ih =>
    simp only [List.sum_cons] at h
    rw [share, List.flatten_cons, ih _ (by rw [List.length_drop]; omega), List.take_append_drop]

theorem share_sizes {α : Type} (sizes : List ℕ) (l : List α) (h : sizes.sum = l.length) : (share sizes l).map List.length = sizes := by
  induction sizes generalizing l with
  | nil => rfl
  | cons m ms ih =>
    simp only [List.sum_cons] at h
    rw [share, List.map_cons, ih _ (by rw [List.length_drop]; omega), List.length_take]
    congr 1
    omega

/-! ### The coefficients of the draws -/

theorem weighted_scale (w : List ℝ) (zs : List (Vec ℝ d)) (sigma : Vec ℝ d) (j : Fin d) : weightedSum w (zs.map fun x => fun j => sigma j * x j) j = sigma j * weightedSum w zs j := by
  unfold weightedSum
  induction zs generalizing w with
  | nil => simp
  | cons z zs ih =>
    cases w with
    | nil => simp
    | cons a w =>
      simp only [List.map_cons, List.zipWith_cons_cons, List.sum_cons, ih]
      ring

theorem weighted_smul (c : ℝ) (w : List ℝ) (zs : List (Vec ℝ d)) (j : Fin d) : weightedSum (w.map (c * ·)) zs j = c * weightedSum w zs j := by
  unfold weightedSum
  induction zs generalizing w with
  | nil => simp
  | cons z zs ih =>
    cases w with
    | nil => simp
    | cons a w =>
      simp only [List.map_cons, List.zipWith_cons_cons, List.sum_cons, ih]
      ring

theorem weighted_append (u v : List ℝ) (xs ys : List (Vec ℝ d)) (h : u.length = xs.length) (j : Fin d) : weightedSum (u ++ v) (xs ++ ys) j = weightedSum u xs j + weightedSum v ys j := by
  unfold weightedSum
  rw [List.zipWith_append h, List.sum_append]

/-- The coefficients that an actor with `m` draws can give them: finitely many, none of them all zero. -/
def Coefficients (m : ℕ) (pool : List (List ℝ)) : Prop := ∀ L ∈ pool, L.length = m ∧ ∃ x ∈ L, x ≠ 0

/-- The gradient of such an actor. -/
def Combines (grads : (Vec ℝ d → ℝ) → Vec ℝ d × Vec ℝ d → List (Vec ℝ d) → Except PyErr (Grads ℝ d)) (m : ℕ) (pool : List (List ℝ)) : Prop :=
  ∀ zs : List (Vec ℝ d), zs.length = m → ∀ f s, ∃ g, grads f s zs = .ok g ∧ ∃ L ∈ pool, ∀ j, g.mu j = s.2 j * weightedSum L zs j

theorem form_length {sense : Sense} {grads : (Vec ℝ d → ℝ) → Vec ℝ d × Vec ℝ d → List (Vec ℝ d) → Except PyErr (Grads ℝ d)} {pop : Vec ℝ d × Vec ℝ d → List (Vec ℝ d) → List (Vec ℝ d)} {κ : ℝ} {V : List ℝ} (hform : Form sense grads pop n κ V) :
    ∃ s zs, zs.length = n ∧ V.length = (pop s zs).length := by
  obtain ⟨g, w, -, hp, hu, -⟩ := hform (List.replicate n fun _ => 0) (by simp) (fun _ => 0) (fun _ => 0, fun _ => 0)
  exact ⟨(fun _ => 0, fun _ => 0), List.replicate n fun _ => 0, List.length_replicate, by rw [← hp.length_eq, hu.length, List.length_map]⟩

/-- Without mirrored solutions. -/
theorem plain_combines {sense : Sense} {grads : (Vec ℝ d → ℝ) → Vec ℝ d × Vec ℝ d → List (Vec ℝ d) → Except PyErr (Grads ℝ d)} {pop : Vec ℝ d × Vec ℝ d → List (Vec ℝ d) → List (Vec ℝ d)} {κ : ℝ} {V : List ℝ} (hκ : 0 < κ) (hV : Distinguished V)
    (hform : Form sense grads pop n κ V) (hpop : ∀ s zs, pop s zs = zs.map fun z => fun j => s.1 j + s.2 j * z j) : ∃ pool, Coefficients n pool ∧ Combines (d := d) grads n pool := by
  have hVl : V.length = n := by
    obtain ⟨s, zs, hz, h⟩ := form_length hform
    rw [h, hpop, List.length_map, hz]
  refine ⟨V.permutations.map fun w => w.map (κ * ·), fun L hL => ?_, fun zs hz f s => ?_⟩
  · obtain ⟨w, hw, rfl⟩ := List.mem_map.mp hL
    have hw := List.mem_permutations.mp hw
    obtain ⟨x, hx, hx0⟩ := (hV.perm hw).ne 0
    exact ⟨by rw [List.length_map, hw.length_eq, hVl], _, List.mem_map.mpr ⟨x, hx, rfl⟩, mul_ne_zero hκ.ne' hx0⟩
  · obtain ⟨g, w, hg, hp, -, -, he⟩ := hform zs hz f s
    refine ⟨g, hg, _, List.mem_map.mpr ⟨w, List.mem_permutations.mpr hp, rfl⟩, fun j => ?_⟩
    have e : ((pop s zs).map fun x => fun j => x j - s.1 j) = zs.map fun x => fun j => s.2 j * x j := by
      rw [hpop, List.map_map]
      refine List.map_congr_left fun x _ => ?_
      funext j
      simp
    rw [he j, e, weighted_scale, weighted_smul]
    ring

/-- With mirrored solutions. -/
theorem mirrored_combines {sense : Sense} {grads : (Vec ℝ d → ℝ) → Vec ℝ d × Vec ℝ d → List (Vec ℝ d) → Except PyErr (Grads ℝ d)} {pop : Vec ℝ d × Vec ℝ d → List (Vec ℝ d) → List (Vec ℝ d)} {κ : ℝ} {V : List ℝ} (hκ : 0 < κ) (hV : Distinguished V)
    (hform : Form sense grads pop n κ V) (hpop : ∀ s zs, pop s zs = zs.flatMap fun z => [fun j => s.1 j + s.2 j * z j, fun j => s.1 j - s.2 j * z j]) : ∃ pool, Coefficients n pool ∧ Combines (d := d) grads n pool := by
  have hVl : V.length = 2 * n := by
    obtain ⟨s, zs, hz, h⟩ := form_length hform
    rw [h, hpop, pairs_length, hz]
  have hevens : ∀ w : List ℝ, ∀ m, w.length = 2 * m → (differences w).length = m := by
    intro w m hm
    induction m generalizing w with
    | zero =>
      have : w = [] := List.length_eq_zero_iff.mp (by omega)
      simp [this, differences, evens]
    | succ m ih =>
      match w, hm with
      | a :: b :: t, hm =>
        have := ih t (by simp at hm; omega)
        simpa [differences, evens, odds] using this
  refine ⟨V.permutations.map fun w => (differences w).map (2 * κ * ·), fun L hL => ?_, fun zs hz f s => ?_⟩
  · obtain ⟨w, hw, rfl⟩ := List.mem_map.mp hL
    have hw := List.mem_permutations.mp hw
    obtain ⟨x, hx⟩ := (hV.perm hw).2
    obtain ⟨i, hi⟩ := differences_ne w n (hw.length_eq.trans hVl) x hx
    have hl := hevens w n (hw.length_eq.trans hVl)
    refine ⟨by rw [List.length_map, hl], _, List.mem_map.mpr ⟨(differences w)[i.val]'(by rw [hl]; exact i.2), List.getElem_mem _, rfl⟩, mul_ne_zero (by positivity) ?_⟩
    simpa [coefs, hl] using hi
  · obtain ⟨g, w, hg, hp, hu, -, he⟩ := hform zs hz f s
    refine ⟨g, hg, _, List.mem_map.mpr ⟨w, List.mem_permutations.mpr hp, rfl⟩, fun j => ?_⟩
    have e : ((evens (zs.flatMap fun z => [fun j => s.1 j + s.2 j * z j, fun j => s.1 j - s.2 j * z j])).map fun x => fun j => x j - s.1 j) = zs.map fun x => fun j => s.2 j * x j := by
      clear hz hg hu he
      induction zs with
      | nil => rfl
      | cons z zs ih =>
        simp only [List.flatMap_cons, List.cons_append, List.nil_append, evens, List.map_cons, ih]
        congr 1
        funext j
        ring
    have hm := mirrored_sum w zs s (by rw [hp.length_eq, hVl, hz]) j
    rw [e, weighted_scale] at hm
    rw [he j, hpop, weighted_smul]
    have : weightedSum (differences w) zs j = weightedSum (List.zipWith (fun a b => (a - b) / 2) (evens w) (odds w)) zs j := rfl
    rw [this]
    linear_combination -2 * κ * hm

/-- The coefficients of all the draws, if that of the actor with `m` draws has the weight `W m`. -/
def together (pool : ℕ → List (List ℝ)) (W : ℕ → ℝ) : List ℕ → List (List ℝ)
  | [] => [[]]
  | m :: ms => (pool m).flatMap fun L => (together pool W ms).map fun C => L.map (W m * ·) ++ C

theorem together_coefficients {pool : ℕ → List (List ℝ)} {W : ℕ → ℝ} (sizes : List ℕ) (h : ∀ m ∈ sizes, Coefficients m (pool m) ∧ 0 < W m) : ∀ C ∈ together pool W sizes, C.length = sizes.sum ∧ (sizes ≠ [] → ∃ x ∈ C, x ≠ 0) := by
  induction sizes with
  | nil => simp [together]
  | cons m ms ih =>
    intro C hC
    obtain ⟨L, hL, hC⟩ := List.mem_flatMap.mp hC
    obtain ⟨C', hC', rfl⟩ := List.mem_map.mp hC
    obtain ⟨h1, h2⟩ := h m (by simp)
    obtain ⟨h3, x, hx, hx0⟩ := h1 L hL
    refine ⟨by rw [List.length_append, List.length_map, h3, (ih (fun m hm => h m (by simp [hm])) C' hC').1, List.sum_cons], fun _ => ⟨W m * x, ?_, mul_ne_zero h2.ne' hx0⟩⟩
    exact List.mem_append_left _ (List.mem_map.mpr ⟨x, hx, rfl⟩)

theorem together_sum {pool : ℕ → List (List ℝ)} {W : ℕ → ℝ} {sigma : Vec ℝ d} {G : List (Vec ℝ d) → Grads ℝ d} (zss : List (List (Vec ℝ d))) (hpool : ∀ zs ∈ zss, Coefficients zs.length (pool zs.length))
    (h : ∀ zs ∈ zss, ∃ L ∈ pool zs.length, ∀ j, (G zs).mu j = sigma j * weightedSum L zs j) :
    ∃ C ∈ together pool W (zss.map List.length), ∀ j, (zss.map fun zs => W zs.length * (G zs).mu j).sum = sigma j * weightedSum C zss.flatten j := by
  induction zss with
  | nil => exact ⟨[], by simp [together], fun j => by simp [weightedSum]⟩
  | cons zs zss ih =>
    obtain ⟨C, hC, e⟩ := ih (fun zs h => hpool zs (by simp [h])) fun zs hz => h zs (by simp [hz])
    obtain ⟨L, hL, eL⟩ := h zs (by simp)
    refine ⟨L.map (W zs.length * ·) ++ C, List.mem_flatMap.mpr ⟨L, hL, List.mem_map.mpr ⟨C, hC, rfl⟩⟩, fun j => ?_⟩
    rw [List.map_cons, List.sum_cons, e j, eL j, List.flatten_cons, weighted_append _ _ _ _ (by rw [List.length_map, (hpool zs (by simp) L hL).1]), weighted_smul]
    ring

/-! ### The gradients of a distributed generation -/

/-- The gradients of the distributed generations are the averages of those of the actors. -/
def Averages (weighted : Bool) (grads : (Vec ℝ d → ℝ) → Vec ℝ d × Vec ℝ d → List (Vec ℝ d) → Except PyErr (Grads ℝ d)) (dgrads : (Vec ℝ d → ℝ) → Vec ℝ d × Vec ℝ d → List (List (Vec ℝ d)) → Except PyErr (Grads ℝ d)) : Prop :=
  ∀ f s zss (G : List (Vec ℝ d) → Grads ℝ d), zss ≠ [] → (∀ zs ∈ zss, zs ≠ [] ∧ grads f s zs = .ok (G zs)) →
    ∃ w : List (Vec ℝ d) → ℝ, (∀ zs ∈ zss, 0 < w zs ∧ w zs = if weighted then (zs.length : ℝ) / (zss.flatten.length : ℝ) else 1 / (zss.length : ℝ)) ∧
      dgrads f s zss = .ok ⟨fun j => (zss.map fun zs => w zs * (G zs).mu j).sum, fun j => (zss.map fun zs => w zs * (G zs).sigma j).sum⟩

theorem pgpe_averages {sort : Sorter ℝ} (p : Pgpe) (weighted : Bool) : Averages (d := d) weighted (pgpeGradients sort p) (distGradients sort p weighted) := fun _ _ _ _ hne hG => distGradients_eq weighted hne hG

theorem snes_averages {sort : Sorter ℝ} (m : Method) (sense : Sense) (weighted : Bool) : Averages (d := d) weighted (snesGradients sort m sense) (snesDistGradients sort m sense weighted) := fun f s _ G hne hG =>
  pooled_eq weighted hne (f := f) (P := fun zs => sample zs s) (G := G) (answer := fun zs => (snesGradients sort m sense f s zs).map (answerWith f (sample zs s))) (fun zs hz => ⟨(hG zs hz).1, by rw [(hG zs hz).2]; rfl⟩) one_pos fun zs => by rw [sample_eq]; simp

/-- What the actors of all these sizes do. -/
structure Actors (sense : Sense) (grads : (Vec ℝ d → ℝ) → Vec ℝ d × Vec ℝ d → List (Vec ℝ d) → Except PyErr (Grads ℝ d)) (pool : ℕ → List (List ℝ)) (sizes : List ℕ) : Prop where
  ne : sizes ≠ []
  pos : ∀ m ∈ sizes, 0 < m
  coefficients : ∀ m ∈ sizes, Coefficients m (pool m)
  combines : ∀ m ∈ sizes, Combines grads m (pool m)
  pushing : ∀ m ∈ sizes, ∃ c K, 0 < c ∧ 0 < K ∧ Pushing (n := m) sense grads List.ofFn c K

/-- The weight of an actor with `m` of all the draws. -/
noncomputable def weightFor (weighted : Bool) (sizes : List ℕ) (m : ℕ) : ℝ := if weighted then (m : ℝ) / (sizes.sum : ℝ) else 1 / (sizes.length : ℝ)

theorem weightFor_pos (weighted : Bool) {sizes : List ℕ} {m : ℕ} (hm : m ∈ sizes) (h0 : 0 < m) : 0 < weightFor weighted sizes m := by
  have h1 : (0 : ℝ) < sizes.length := by exact_mod_cast List.length_pos_of_mem hm
  have h2 : (0 : ℝ) < sizes.sum := by exact_mod_cast lt_of_lt_of_le h0 (List.single_le_sum (fun _ _ => Nat.zero_le _) _ hm)
  have h3 : (0 : ℝ) < m := by exact_mod_cast h0
  unfold weightFor
  split <;> positivity

/-- The gradient of a generation, seen in both ways: as the average of those of the actors, and as a combination of the draws. -/
theorem dist_gradient {sense : Sense} {weighted : Bool} {grads : (Vec ℝ d → ℝ) → Vec ℝ d × Vec ℝ d → List (Vec ℝ d) → Except PyErr (Grads ℝ d)} {dgrads : (Vec ℝ d → ℝ) → Vec ℝ d × Vec ℝ d → List (List (Vec ℝ d)) → Except PyErr (Grads ℝ d)}
    {pool : ℕ → List (List ℝ)} {sizes : List ℕ} (hact : Actors sense grads pool sizes) (hav : Averages weighted grads dgrads) (l : List (Vec ℝ d)) (hl : sizes.sum = l.length) (f : Vec ℝ d → ℝ) (s : Vec ℝ d × Vec ℝ d) :
    ∃ (G : List (Vec ℝ d) → Grads ℝ d) (g : Grads ℝ d), (∀ zs ∈ share sizes l, zs.length ∈ sizes ∧ grads f s zs = .ok (G zs)) ∧ dgrads f s (share sizes l) = .ok g ∧
      (∀ j, g.mu j = ((share sizes l).map fun zs => weightFor weighted sizes zs.length * (G zs).mu j).sum) ∧ ∃ C ∈ together pool (weightFor weighted sizes) sizes, ∀ j, g.mu j = s.2 j * weightedSum C l j := by
  have hsz := share_sizes sizes l hl
  have hmem : ∀ zs ∈ share sizes l, zs.length ∈ sizes := fun zs hz => by
    rw [← hsz]
    exact List.mem_map.mpr ⟨zs, hz, rfl⟩
  have hall : ∀ zs, ∃ g, zs ∈ share sizes l → grads f s zs = .ok g ∧ ∃ L ∈ pool zs.length, ∀ j, g.mu j = s.2 j * weightedSum L zs j := by
    intro zs
    by_cases h : zs ∈ share sizes l
    · obtain ⟨g, hg⟩ := hact.combines _ (hmem zs h) zs rfl f s
      exact ⟨g, fun _ => hg⟩
    · exact ⟨⟨0, 0⟩, fun h' => absurd h' h⟩
  choose G hG using hall
  obtain ⟨w, hw, he⟩ := hav f s (share sizes l) G (fun h0 => hact.ne (by rw [← hsz, h0]; rfl)) fun zs hz => ⟨List.length_pos_iff.mp (hact.pos _ (hmem zs hz)), (hG zs hz).1⟩
  have hwe : ∀ zs ∈ share sizes l, w zs = weightFor weighted sizes zs.length := by
    intro zs hz
    have hlen : (share sizes l).length = sizes.length := by conv_rhs => rw [← hsz, List.length_map]
    rw [(hw zs hz).2, share_flatten sizes l hl, ← hl, hlen]
    rfl
  have hmu : ∀ j, ((share sizes l).map fun zs => w zs * (G zs).mu j).sum = ((share sizes l).map fun zs => weightFor weighted sizes zs.length * (G zs).mu j).sum := fun j => by
    congr 1
    exact List.map_congr_left fun zs hz => by rw [hwe zs hz]
  obtain ⟨C, hC, e⟩ := together_sum (W := weightFor weighted sizes) (share sizes l) (fun zs hz => hact.coefficients _ (hmem zs hz)) fun zs hz => (hG zs hz).2
  rw [hsz] at hC
  rw [share_flatten sizes l hl] at e
  exact ⟨G, _, fun zs hz => ⟨hmem zs hz, (hG zs hz).1⟩, he, hmu, C, hC, fun j => (hmu j).trans (e j)⟩

/-- Almost surely, no component of the gradient of a generation is zero. -/
theorem dist_ne {sense : Sense} {weighted : Bool} {grads : (Vec ℝ d → ℝ) → Vec ℝ d × Vec ℝ d → List (Vec ℝ d) → Except PyErr (Grads ℝ d)} {dgrads : (Vec ℝ d → ℝ) → Vec ℝ d × Vec ℝ d → List (List (Vec ℝ d)) → Except PyErr (Grads ℝ d)}
    {pool : ℕ → List (List ℝ)} {sizes : List ℕ} (hact : Actors sense grads pool sizes) (hav : Averages weighted grads dgrads) (hn : sizes.sum = n) :
    ∀ᵐ z ∂draws n d, ∀ (f : Vec ℝ d → ℝ) (s : Vec ℝ d × Vec ℝ d), ∃ g, dgrads f s (share sizes (List.ofFn z)) = .ok g ∧ ∀ j, s.2 j ≠ 0 → g.mu j ≠ 0 := by
  have hco := together_coefficients (W := weightFor weighted sizes) sizes fun m hm => ⟨hact.coefficients m hm, weightFor_pos weighted hm (hact.pos m hm)⟩
  filter_upwards [generic (n := n) (d := d) ((together pool (weightFor weighted sizes) sizes).map (coefs n)) (by
    intro c hc
    obtain ⟨C, hC, rfl⟩ := List.mem_map.mp hc
    obtain ⟨hCl, hCne⟩ := hco C hC
    obtain ⟨x, hx, hx0⟩ := hCne hact.ne
    obtain ⟨i, hi, rfl⟩ := List.getElem_of_mem hx
    exact ⟨⟨i, by rw [← hn, ← hCl]; exact hi⟩, by simpa [coefs, hi] using hx0⟩)] with z hz f s
  obtain ⟨G, g, -, hg, -, C, hC, e⟩ := dist_gradient hact hav (List.ofFn z) (by simpa using hn) f s
  refine ⟨g, hg, fun j hj => ?_⟩
  rw [e j]
  have := weightedSum_eq C z (fun _ => 1) j
  simp only [one_mul, List.map_id'] at this
  rw [this]
  exact mul_ne_zero hj (hz _ (List.mem_map.mpr ⟨C, hC, rfl⟩) j)

theorem dist_pushing {sense : Sense} {weighted : Bool} {grads : (Vec ℝ d → ℝ) → Vec ℝ d × Vec ℝ d → List (Vec ℝ d) → Except PyErr (Grads ℝ d)} {dgrads : (Vec ℝ d → ℝ) → Vec ℝ d × Vec ℝ d → List (List (Vec ℝ d)) → Except PyErr (Grads ℝ d)}
    {pool : ℕ → List (List ℝ)} {sizes : List ℕ} (hact : Actors sense grads pool sizes) (hav : Averages weighted grads dgrads) (hn : sizes.sum = n) :
    ∃ c K, 0 < c ∧ 0 < K ∧ Pushing (n := n) sense dgrads (fun z => share sizes (List.ofFn z)) c K := by
  have hgain : ∀ (f : Vec ℝ d → ℝ) (a : Vec ℝ d) (b : ℝ), (∀ x, f x = b + ∑ j, a j * x j) → ∀ (z : Fin n → Fin d → ℝ) s, ∃ (G : List (Vec ℝ d) → Grads ℝ d) (g : Grads ℝ d), dgrads f s (share sizes (List.ofFn z)) = .ok g ∧
      (∀ zs ∈ share sizes (List.ofFn z), zs.length ∈ sizes ∧ grads f s zs = .ok (G zs) ∧ 0 ≤ gain a sense (G zs).mu) ∧ gain a sense g.mu = ((share sizes (List.ofFn z)).map fun zs => weightFor weighted sizes zs.length * gain a sense (G zs).mu).sum ∧
      ∃ C ∈ together pool (weightFor weighted sizes) sizes, ∀ j, g.mu j = s.2 j * weightedSum C (List.ofFn z) j := by
    intro f a b hf z s
    obtain ⟨G, g, hG, hg, hmu, hC⟩ := dist_gradient hact hav (List.ofFn z) (by simpa using hn) f s
    refine ⟨G, g, hg, fun zs hz => ?_, ?_, hC⟩
    · obtain ⟨h1, h2⟩ := hG zs hz
      obtain ⟨c, K, -, -, hp⟩ := hact.pushing _ h1
      obtain ⟨g', hg', h0⟩ := hp.forward f a b hf zs.get s
      rw [List.ofFn_get, h2] at hg'
      injection hg' with hg'
      exact ⟨h1, h2, hg' ▸ h0⟩
    · have : g.mu = fun j => ((share sizes (List.ofFn z)).map fun zs => weightFor weighted sizes zs.length * (G zs).mu j).sum := funext hmu
      rw [this, gain_list a sense (fun zs : List (Vec ℝ d) => weightFor weighted sizes zs.length) (fun zs => (G zs).mu)]
  have hnn : ∀ (a : Vec ℝ d) s (f : Vec ℝ d → ℝ) (l : List (Vec ℝ d)) (G : List (Vec ℝ d) → Grads ℝ d), (∀ zs ∈ share sizes l, zs.length ∈ sizes ∧ grads f s zs = .ok (G zs) ∧ 0 ≤ gain a sense (G zs).mu) →
      ∀ x ∈ (share sizes l).map fun zs => weightFor weighted sizes zs.length * gain a sense (G zs).mu, 0 ≤ x := by
    intro a s f l G h x hx
    obtain ⟨zs, hz, rfl⟩ := List.mem_map.mp hx
    obtain ⟨h1, -, h3⟩ := h zs hz
    exact mul_nonneg (weightFor_pos weighted h1 (hact.pos _ h1)).le h3
  obtain ⟨m, ms, hms⟩ := List.exists_cons_of_ne_nil hact.ne
  have hm : m ∈ sizes := by simp [hms]
  obtain ⟨c, K, hc, hK, hp⟩ := hact.pushing m hm
  have hW := weightFor_pos weighted hm (hact.pos m hm)
  obtain ⟨B, hB⟩ : ∃ B, B = ((together pool (weightFor weighted sizes) sizes).map fun C => (C.map fun x => |x|).sum).sum := ⟨_, rfl⟩
  have habs : ∀ C : List ℝ, 0 ≤ (C.map fun x => |x|).sum := fun C => List.sum_nonneg fun x hx => by
    obtain ⟨y, -, rfl⟩ := List.mem_map.mp hx
    exact _root_.abs_nonneg y
  have hBall : ∀ x ∈ (together pool (weightFor weighted sizes) sizes).map fun C => (C.map fun x => |x|).sum, 0 ≤ x := fun x hx => by
    obtain ⟨C, -, rfl⟩ := List.mem_map.mp hx
    exact habs C
  have hB0 : 0 ≤ B := hB ▸ List.sum_nonneg hBall
  have hmn : m ≤ n := by rw [← hn, hms, List.sum_cons]; omega
  refine ⟨weightFor weighted sizes m * c, B * 3 + 1, mul_pos hW hc, by positivity, fun f a b hf z s => ?_, fun f a b hf z hz s hs hpos => ?_⟩
  · obtain ⟨G, g, hg, hG, hsum, -⟩ := hgain f a b hf z s
    exact ⟨g, hg, by rw [hsum]; exact List.sum_nonneg (hnn a s f _ G hG)⟩
  · obtain ⟨G, g, hg, hG, hsum, C, hC, e⟩ := hgain f a b hf z s
    have hfirst : List.ofFn (fun i : Fin m => z (i.castLE hmn)) ∈ share sizes (List.ofFn z) := by
      rw [hms, share]
      refine List.mem_cons.mpr (.inl ?_)
      refine List.ext_getElem (by simp [hmn]) fun i h1 h2 => by simp
    obtain ⟨g1, hg1, q1, -⟩ := hp.leap f a b hf (fun i : Fin m => z (i.castLE hmn)) (fun i j => by simpa using hz (i.castLE hmn) j) s hs hpos
    have hG1 := (hG _ hfirst).2.1
    rw [hg1] at hG1
    injection hG1 with hG1
    refine ⟨g, hg, ?_, fun j => ?_⟩
    · rw [hsum]
      refine le_trans ?_ (List.single_le_sum (hnn a s f _ G hG) _ (List.mem_map.mpr ⟨_, hfirst, rfl⟩))
      rw [List.length_ofFn, ← hG1, mul_assoc]
      exact mul_le_mul_of_nonneg_left q1 hW.le
    · rw [e j, abs_mul, abs_of_nonneg (hs j)]
      have h3 := weighted_bound C (List.ofFn z) j (B := 3) (by norm_num) fun r hr => by
        obtain ⟨i, rfl⟩ := (List.mem_ofFn' _ _).mp hr
        have := hz i j
        split at this
        · rw [← dir_abs (uphill a sense j), abs_of_pos (by linarith [this.1])]
          exact this.2.le
        · linarith
      have hCB : (C.map fun x => |x|).sum ≤ B := hB ▸ List.single_le_sum hBall _ (List.mem_map.mpr ⟨C, hC, rfl⟩)
      have : |weightedSum C (List.ofFn z) j| ≤ B * 3 + 1 := by linarith
      rw [mul_comm]
      exact mul_le_mul_of_nonneg_right this (hs j)

/-! ### The searches -/

theorem pgpe_actors {sort : Sorter ℝ} (hs : SorterSpec sort) {p : Pgpe} (hm : ByOrder p.method) {sizes : List ℕ} (hne : sizes ≠ []) (hsz : ∀ m ∈ sizes, 2 ≤ size p m) : ∃ pool, Actors (d := d) p.sense (pgpeGradients sort p) pool sizes := by
  have hpos : ∀ m, 2 ≤ size p m → 0 < m := fun m h => by unfold size at h; split at h <;> omega
  have hall : ∀ m, ∃ pool, 2 ≤ size p m → Coefficients m pool ∧ Combines (d := d) (pgpeGradients sort p) m pool := by
    intro m
    by_cases h : 2 ≤ size p m
    · obtain ⟨κ, V, hκ, hV, hform⟩ := pgpe_form (n := m) (d := d) hs hm h
      cases hsym : p.symmetric with
      | false =>
        obtain ⟨pool, hp⟩ := plain_combines hκ hV hform fun s zs => by rw [population, hsym]; rfl
        exact ⟨pool, fun _ => hp⟩
      | true =>
        obtain ⟨pool, hp⟩ := mirrored_combines hκ hV hform fun s zs => by rw [population, hsym]; rfl
        exact ⟨pool, fun _ => hp⟩
    · exact ⟨[], fun h' => absurd h' h⟩
  choose pool hpool using hall
  refine ⟨pool, hne, fun m h => hpos m (hsz m h), fun m h => (hpool m (hsz m h)).1, fun m h => (hpool m (hsz m h)).2, fun m h => ?_⟩
  obtain ⟨κ, V, hκ, hV, hform⟩ := pgpe_form (n := m) (d := d) hs hm (hsz m h)
  exact pushing_of_form hκ hV hform (pgpe_drawn p) (hpos m (hsz m h))

theorem snes_actors {sort : Sorter ℝ} (hs : SorterSpec sort) {m : Method} (hm : m = .nes ∨ m = .centered) (sense : Sense) {sizes : List ℕ} (hne : sizes ≠ []) (hsz : ∀ k ∈ sizes, 2 ≤ k) : ∃ pool, Actors (d := d) sense (snesGradients sort m sense) pool sizes := by
  have hall : ∀ k, ∃ pool, 2 ≤ k → Coefficients k pool ∧ Combines (d := d) (snesGradients sort m sense) k pool := by
    intro k
    by_cases h : 2 ≤ k
    · obtain ⟨κ, V, hκ, hV, hform⟩ := snes_form (n := k) (d := d) hs hm sense h
      obtain ⟨pool, hp⟩ := plain_combines hκ hV hform fun s zs => sample_eq zs s
      exact ⟨pool, fun _ => hp⟩
    · exact ⟨[], fun h' => absurd h' h⟩
  choose pool hpool using hall
  refine ⟨pool, hne, fun k h => by have := hsz k h; omega, fun k h => (hpool k (hsz k h)).1, fun k h => (hpool k (hsz k h)).2, fun k h => ?_⟩
  obtain ⟨κ, V, hκ, hV, hform⟩ := snes_form (n := k) (d := d) hs hm sense (hsz k h)
  exact pushing_of_form hκ hV hform snes_drawn (by have := hsz k h; omega)

/-- The first `T` generations of a search in which `sizes` says how many of the draws each actor has. -/
def firstShared (sizes : List ℕ) (T : ℕ) (z : ℕ → Fin n → Fin d → ℝ) : List (List (List (Vec ℝ d))) := (List.range T).map fun t => share sizes (List.ofFn (z t))

/-- **C180 for a distributed PGPE.** Almost surely, whatever the fitness function, the center is never NaN and the standard deviations stay positive. -/
theorem C180_pgpe_distributed {sort : Sorter ℝ} (hs : SorterSpec sort) {p : Pgpe} (hm : ByOrder p.method) (weighted : Bool) {sizes : List ℕ} (hne : sizes ≠ []) (hsz : ∀ m ∈ sizes, 2 ≤ size p m) (hn : sizes.sum = n) (hd : 0 < d)
    (lo : Option ℝ) {hi : Option ℝ} (hhi : ∀ h, hi = some h → 0 < h) {change : ℝ} (hc0 : 0 ≤ change) (hc1 : change < 1) {stepsize momentum : ℝ} {maxSpeed : Option ℝ} {c : ClipUp d} (hc : ClipUp.create d stepsize momentum maxSpeed = .ok c) :
    ∀ᵐ z ∂allDraws n d, ∀ (f : Vec ℝ d → ℝ) (mu sigma : Vec ℝ d), (∀ j, 0 < sigma j) → ∀ T, ∃ s, optRun ClipUp.ascent (limitSpread lo hi (some change) (addSpread p.lrSigma)) (distGradients sort p weighted f) ⟨some mu, sigma, c⟩ (firstShared sizes T z) = .ok s ∧
      s.mu ≠ none ∧ ∀ j, 0 < s.sigma j := by
  have hv : c.velocity ≠ none := by
    unfold ClipUp.create at hc
    dsimp only at hc
    split_ifs at hc
    injection hc with hc
    rw [← hc]
    simp
  obtain ⟨pool, hact⟩ := pgpe_actors (d := d) hs hm hne hsz
  filter_upwards [always (dist_ne hact (pgpe_averages p weighted) hn)] with z hz f mu sigma hsig T
  refine run_alive (grads := fun f => distGradients sort p weighted f) (limit_positive hhi hc0 hc1) hd f (firstShared sizes T z) ?_ ⟨some mu, sigma, c⟩ (by simp) hsig hv
  intro zs hzs
  obtain ⟨t, -, rfl⟩ := List.mem_map.mp hzs
  exact hz t f

/-- **C180 for a distributed SNES**, with the rankings whose utilities sum to zero. -/
theorem C180_snes_distributed {sort : Sorter ℝ} (hs : SorterSpec sort) {m : Method} (hm : m = .nes ∨ m = .centered) (sense : Sense) (lrSigma : ℝ) (weighted : Bool) {sizes : List ℕ} (hne : sizes ≠ []) (hsz : ∀ k ∈ sizes, 2 ≤ k) (hn : sizes.sum = n) (hd : 0 < d)
    {stepsize momentum : ℝ} {maxSpeed : Option ℝ} {c : ClipUp d} (hc : ClipUp.create d stepsize momentum maxSpeed = .ok c) :
    ∀ᵐ z ∂allDraws n d, ∀ (f : Vec ℝ d → ℝ) (mu sigma : Vec ℝ d), (∀ j, 0 < sigma j) → ∀ T, ∃ s, snesDistRun ClipUp.ascent sort m sense lrSigma weighted f ⟨some mu, sigma, c⟩ (firstShared sizes T z) = .ok s ∧ s.mu ≠ none ∧ ∀ j, 0 < s.sigma j := by
  have hv : c.velocity ≠ none := by
    unfold ClipUp.create at hc
    dsimp only at hc
    split_ifs at hc
    injection hc with hc
    rw [← hc]
    simp
  obtain ⟨pool, hact⟩ := snes_actors (d := d) hs hm sense hne hsz
  filter_upwards [always (dist_ne hact (snes_averages m sense weighted) hn)] with z hz f mu sigma hsig T
  refine run_alive (grads := fun f => snesDistGradients sort m sense weighted f) (fun sigma g h j => mul_pos (h j) (Real.exp_pos _)) hd f (firstShared sizes T z) ?_ ⟨some mu, sigma, c⟩ (by simp) hsig hv
  intro zs hzs
  obtain ⟨t, -, rfl⟩ := List.mem_map.mp hzs
  exact hz t f

/-- **C181 for a distributed PGPE with a plain learning rate.** -/
theorem C181_pgpe_distributed {sort : Sorter ℝ} (hs : SorterSpec sort) {p : Pgpe} (hm : ByOrder p.method) (weighted : Bool) {sizes : List ℕ} (hne : sizes ≠ []) (hsz : ∀ m ∈ sizes, 2 ≤ size p m) (hn : sizes.sum = n) {lr : ℝ} (hlr : 0 < lr)
    {lo : ℝ} (hlo : 0 < lo) {hi change : Option ℝ} (hhi : ∀ h, hi = some h → lo ≤ h) (hch : ∀ c, change = some c → 0 ≤ c) :
    ∀ᵐ z ∂allDraws n d, ∀ f : Vec ℝ d → ℝ, Linear f → (∃ x y, f x ≠ f y) → ∀ mu sigma : Vec ℝ d, (∀ j, lo ≤ sigma j) → ∀ bound, ∃ T0, ∀ T, T0 ≤ T →
      ∃ s m, optRun (plainAscent lr) (limitSpread (some lo) hi change (addSpread p.lrSigma)) (distGradients sort p weighted f) ⟨some mu, sigma, ()⟩ (firstShared sizes T z) = .ok s ∧ s.mu = some m ∧ StrictlyBetter p.sense (f m) bound := by
  obtain ⟨pool, hact⟩ := pgpe_actors (d := d) hs hm hne hsz
  obtain ⟨c, K, hc, -, hpush⟩ := dist_pushing hact (pgpe_averages p weighted) hn
  exact plain_unbounded hc hpush hlr _ hlo hhi hch

/-- **C181 for a distributed PGPE with ClipUp.** -/
theorem C181_pgpe_distributed_clipup {sort : Sorter ℝ} (hs : SorterSpec sort) {p : Pgpe} (hm : ByOrder p.method) (weighted : Bool) {sizes : List ℕ} (hne : sizes ≠ []) (hsz : ∀ m ∈ sizes, 2 ≤ size p m) (hn : sizes.sum = n) (hd : 0 < d)
    (lo : Option ℝ) {hi : Option ℝ} (hhi : ∀ h, hi = some h → 0 < h) {change : ℝ} (hc0 : 0 ≤ change) (hc1 : change < 1)
    {stepsize momentum : ℝ} {maxSpeed : Option ℝ} (h1 : 0 < stepsize) (h3 : ∀ m, maxSpeed = some m → 0 < m) {c : ClipUp d} (hc : ClipUp.create d stepsize momentum maxSpeed = .ok c) :
    ∀ᵐ z ∂allDraws n d, ∀ f : Vec ℝ d → ℝ, Linear f → EveryVariable f → ∀ mu sigma : Vec ℝ d, (∀ j, 0 < sigma j) → ∀ bound, ∃ T0, ∀ T, T0 ≤ T →
      ∃ s m, optRun ClipUp.ascent (limitSpread lo hi (some change) (addSpread p.lrSigma)) (distGradients sort p weighted f) ⟨some mu, sigma, c⟩ (firstShared sizes T z) = .ok s ∧ s.mu = some m ∧ StrictlyBetter p.sense (f m) bound := by
  obtain ⟨pool, hact⟩ := pgpe_actors (d := d) hs hm hne hsz
  obtain ⟨q, K, hq, hK, hpush⟩ := dist_pushing hact (pgpe_averages p weighted) hn
  exact clipup_unbounded hq hK hpush hd (dist_ne hact (pgpe_averages p weighted) hn) (limit_positive hhi hc0 hc1) h1 h3 hc

/-- **C181 for a distributed SNES with a plain learning rate.** -/
theorem C181_snes_distributed {sort : Sorter ℝ} (hs : SorterSpec sort) {m : Method} (hm : m = .nes ∨ m = .centered) (sense : Sense) (weighted : Bool) {sizes : List ℕ} (hne : sizes ≠ []) (hsz : ∀ k ∈ sizes, 2 ≤ k) (hn : sizes.sum = n) {lr : ℝ} (hlr : 0 < lr)
    (lrSigma : ℝ) {lo : ℝ} (hlo : 0 < lo) {hi change : Option ℝ} (hhi : ∀ h, hi = some h → lo ≤ h) (hch : ∀ c, change = some c → 0 ≤ c) :
    ∀ᵐ z ∂allDraws n d, ∀ f : Vec ℝ d → ℝ, Linear f → (∃ x y, f x ≠ f y) → ∀ mu sigma : Vec ℝ d, (∀ j, lo ≤ sigma j) → ∀ bound, ∃ T0, ∀ T, T0 ≤ T →
      ∃ s x, optRun (plainAscent lr) (limitSpread (some lo) hi change (ExpGaussian.snesUpdateSigma lrSigma)) (snesDistGradients sort m sense weighted f) ⟨some mu, sigma, ()⟩ (firstShared sizes T z) = .ok s ∧ s.mu = some x ∧ StrictlyBetter sense (f x) bound := by
  obtain ⟨pool, hact⟩ := snes_actors (d := d) hs hm sense hne hsz
  obtain ⟨c, K, hc, -, hpush⟩ := dist_pushing hact (snes_averages m sense weighted) hn
  exact plain_unbounded hc hpush hlr _ hlo hhi hch

/-- **C181 for a distributed SNES with ClipUp.** -/
theorem C181_snes_distributed_clipup {sort : Sorter ℝ} (hs : SorterSpec sort) {m : Method} (hm : m = .nes ∨ m = .centered) (sense : Sense) (weighted : Bool) {sizes : List ℕ} (hne : sizes ≠ []) (hsz : ∀ k ∈ sizes, 2 ≤ k) (hn : sizes.sum = n) (hd : 0 < d)
    (lrSigma : ℝ) {stepsize momentum : ℝ} {maxSpeed : Option ℝ} (h1 : 0 < stepsize) (h3 : ∀ m, maxSpeed = some m → 0 < m) {c : ClipUp d} (hc : ClipUp.create d stepsize momentum maxSpeed = .ok c) :
    ∀ᵐ z ∂allDraws n d, ∀ f : Vec ℝ d → ℝ, Linear f → EveryVariable f → ∀ mu sigma : Vec ℝ d, (∀ j, 0 < sigma j) → ∀ bound, ∃ T0, ∀ T, T0 ≤ T →
      ∃ s x, snesDistRun ClipUp.ascent sort m sense lrSigma weighted f ⟨some mu, sigma, c⟩ (firstShared sizes T z) = .ok s ∧ s.mu = some x ∧ StrictlyBetter sense (f x) bound := by
  obtain ⟨pool, hact⟩ := snes_actors (d := d) hs hm sense hne hsz
  obtain ⟨q, K, hq, hK, hpush⟩ := dist_pushing hact (snes_averages m sense weighted) hn
  exact clipup_unbounded hq hK hpush hd (dist_ne hact (snes_averages m sense weighted) hn) (fun sigma g h j => mul_pos (h j) (Real.exp_pos _)) h1 h3 hc

/-! ### A concrete search -/

/-- The default PGPE with two actors of three and two directions minimises `x - 2 y` without bound. -/
example {c : ClipUp 2} (hc : ClipUp.create 2 0.1 0.9 none = .ok c) :
    ∀ᵐ z ∂allDraws 5 2, ∃ T0, ∀ T, T0 ≤ T → ∃ s m, optRun ClipUp.ascent (limitSpread none none (some 0.2) (addSpread 0.1)) (distGradients exampleSorter NeverNan.defaults true fun x => x 0 - 2 * x 1) ⟨some fun _ => 0, fun _ => 1, c⟩ (firstShared [3, 2] T z) = .ok s ∧ s.mu = some m ∧ m 0 - 2 * m 1 < -1000000 := by
  filter_upwards [C181_pgpe_distributed_clipup (n := 5) (d := 2) exampleSorter_spec (p := NeverNan.defaults) (Or.inl rfl) true (sizes := [3, 2]) (by simp) (by intro m h; rcases (by simpa using h : m = 3 ∨ m = 2) with rfl | rfl <;> decide) rfl (by norm_num) none (hi := none) (fun h e => by cases e) (change := 0.2) (by norm_num) (by norm_num) (by norm_num) (fun m e => by cases e) hc] with z hz
  refine hz (fun x => x 0 - 2 * x 1) ⟨![1, -2], 0, fun x => by simp [Fin.sum_univ_two]; ring⟩ (fun j => ?_) (fun _ => 0) (fun _ => 1) (fun _ => one_pos) (-1000000)
  fin_cases j
  · exact ⟨![1, 0], ![0, 0], fun k hk => by fin_cases k <;> simp at hk ⊢, by norm_num⟩
  · exact ⟨![0, 1], ![0, 0], fun k hk => by fin_cases k <;> simp at hk ⊢, by norm_num⟩

/-- It never makes a NaN, whatever the fitness function. -/
example {c : ClipUp 2} (hc : ClipUp.create 2 0.1 0.9 none = .ok c) :
    ∀ᵐ z ∂allDraws 5 2, ∀ (f : Vec ℝ 2 → ℝ) T, ∃ s, optRun ClipUp.ascent (limitSpread none none (some 0.2) (addSpread 0.1)) (distGradients exampleSorter NeverNan.defaults true f) ⟨some fun _ => 0, fun _ => 1, c⟩ (firstShared [3, 2] T z) = .ok s ∧ s.mu ≠ none := by
  filter_upwards [C180_pgpe_distributed (n := 5) (d := 2) exampleSorter_spec (p := NeverNan.defaults) (Or.inl rfl) true (sizes := [3, 2]) (by simp) (by intro m h; rcases (by simpa using h : m = 3 ∨ m = 2) with rfl | rfl <;> decide) rfl (by norm_num) none (hi := none) (fun h e => by cases e) (change := 0.2) (by norm_num) (by norm_num) hc] with z hz f T
  obtain ⟨s, h1, h2, -⟩ := hz f (fun _ => 0) (fun _ => 1) (fun _ => one_pos) T
  exact ⟨s, h1, h2⟩

/-- Two SNES actors with two solutions each, a plain learning rate and `stdev_min`. -/
example : ∀ᵐ z ∂allDraws 4 3, ∃ T0, ∀ T, T0 ≤ T → ∃ s m, optRun (plainAscent 0.5) (limitSpread (some 0.01) none none (ExpGaussian.snesUpdateSigma 0.1)) (snesDistGradients exampleSorter .nes .max false fun x => x 0) ⟨some fun _ => 0, fun _ => 1, ()⟩ (firstShared [2, 2] T z) = .ok s ∧ s.mu = some m ∧ 1000000 < m 0 := by
  filter_upwards [C181_snes_distributed (n := 4) (d := 3) exampleSorter_spec (m := .nes) (Or.inl rfl) .max false (sizes := [2, 2]) (by simp) (by simp) rfl (lr := 0.5) (by norm_num) 0.1 (lo := 0.01) (by norm_num) (hi := none) (change := none) (fun h e => by cases e) (fun c e => by cases e)] with z hz
  exact hz (fun x => x 0) ⟨![1, 0, 0], 0, fun x => by simp [Fin.sum_univ_three]⟩ ⟨fun _ => 0, fun _ => 1, by norm_num⟩ (fun _ => 0) (fun _ => 1) (fun _ => by norm_num) 1000000

end EvoTorch.LinearProgress
