import Verif.Props.NeutralSearch
import Verif.Props.Ranking
import Verif.Spec.Selection
import Verif.Props.Distribution
import Mathlib.Data.List.GetD
/-!
C174: on a linear fitness function the center of PGPE, SNES and XNES never gets worse.
-/
namespace EvoTorch.LinearProgress
open EvoTorch.Generations EvoTorch.Distribution EvoTorch.NeutralSearch MeasureTheory ProbabilityTheory
open EvoTorch.GaussianScore (γ std draws)
open EvoTorch.BestWorst (Sense)
open EvoTorch.Selection (Sorter SorterSpec NotWorse exampleSorter exampleSorter_spec)

variable {n d : ℕ}

/-- A linear fitness function (with a constant term). -/
def Linear (f : Vec ℝ d → ℝ) : Prop := ∃ (a : Vec ℝ d) (b : ℝ), ∀ x, f x = b + ∑ j, a j * x j

/-- Strictly better. -/
def StrictlyBetter (s : Sense) (x y : ℝ) : Prop :=
  match s with
  | .min => x < y
  | .max => y < x

/-! ### Sums of products -/

theorem pairs (w y : Fin n → ℝ) : ∑ i, ∑ k, (w i - w k) * (y i - y k) = 2 * (n * ∑ i, w i * y i - (∑ i, w i) * ∑ i, y i) := by
  have : ∀ i k, (w i - w k) * (y i - y k) = w i * y i - w i * y k - w k * y i + w k * y k := fun i k => by ring
  simp only [this, Finset.sum_add_distrib, Finset.sum_sub_distrib, Finset.sum_const, Finset.card_univ, Fintype.card_fin, nsmul_eq_mul, ← Finset.mul_sum, ← Finset.sum_mul]
  ring

/-- Weights which sum to zero and grow with `y` have a non-negative product with it; a positive one if neither is constant. -/
theorem product {w y : Fin n → ℝ} (h : ∀ i k, y k < y i → w k ≤ w i) (h0 : ∑ i, w i = 0) :
    0 ≤ ∑ i, w i * y i ∧ ((∃ i k, w i ≠ w k) → (∃ i k, y i ≠ y k) → 0 < ∑ i, w i * y i) := by
  have hp := pairs w y
  rw [h0, zero_mul, sub_zero] at hp
  have hterm : ∀ i k, 0 ≤ (w i - w k) * (y i - y k) := by
    intro i k
    rcases lt_trichotomy (y k) (y i) with hlt | heq | hgt
    · exact mul_nonneg (sub_nonneg.mpr (h i k hlt)) (sub_nonneg.mpr hlt.le)
    · simp [heq]
    · exact mul_nonneg_of_nonpos_of_nonpos (sub_nonpos.mpr (h k i hgt)) (sub_nonpos.mpr hgt.le)
  rcases Nat.eq_zero_or_pos n with rfl | hn
  · simp
  have hn' : (0 : ℝ) < n := by exact_mod_cast hn
  have hnn : 0 ≤ ∑ i, ∑ k, (w i - w k) * (y i - y k) := Finset.sum_nonneg fun i _ => Finset.sum_nonneg fun k _ => hterm i k
  refine ⟨?_, fun hw hy => ?_⟩
  · have : 0 ≤ n * ∑ i, w i * y i := by linarith
    exact nonneg_of_mul_nonneg_right this hn'
  · have hpos : ∃ i k, 0 < (w i - w k) * (y i - y k) := by
      obtain ⟨i, k, hik⟩ : ∃ i k, w k < w i := by
        obtain ⟨i, k, hik⟩ := hw
        rcases lt_or_gt_of_ne hik with hlt | hgt
        · exact ⟨k, i, hlt⟩
        · exact ⟨i, k, hgt⟩
      rcases lt_trichotomy (y k) (y i) with hlt | heq | hgt
      · exact ⟨i, k, mul_pos (sub_pos.mpr hik) (sub_pos.mpr hlt)⟩
      · obtain ⟨l, hl⟩ : ∃ l, y l ≠ y k := by
          by_contra hcon
          push Not at hcon
          obtain ⟨p, q, hpq⟩ := hy
          exact hpq ((hcon p).trans (hcon q).symm)
        rcases lt_or_gt_of_ne hl with hlt | hgt
        · have := h i l (by rw [← heq]; exact hlt)
          have h2 := h k l hlt
          exact ⟨i, l, mul_pos (by linarith) (by linarith)⟩
        · have := h l i (by rw [← heq]; exact hgt)
          exact ⟨l, k, mul_pos (by linarith) (by linarith)⟩
      · exact absurd (h k i hgt) (not_le.mpr hik)
    obtain ⟨i, k, hik⟩ := hpos
    have : 0 < ∑ i, ∑ k, (w i - w k) * (y i - y k) :=
      lt_of_lt_of_le hik (le_trans (Finset.single_le_sum (f := fun k => (w i - w k) * (y i - y k)) (fun k _ => hterm i k) (Finset.mem_univ k))
        (Finset.single_le_sum (f := fun i => ∑ k, (w i - w k) * (y i - y k)) (fun i _ => Finset.sum_nonneg fun k _ => hterm i k) (Finset.mem_univ i)))
    have : 0 < n * ∑ i, w i * y i := by linarith
    exact pos_of_mul_pos_right this hn'.le

/-! ### Utilities -/

/-- What the utilities of `n` fitnesses must satisfy: one for each, growing with the quality of the fitness; equal for all only if all fitnesses are. -/
structure Utilities (hib : Bool) (fits w : List ℝ) : Prop where
  length : w.length = fits.length
  mono : ∀ i k, i < fits.length → k < fits.length → Ranking.Better hib (fits.getD i 0) (fits.getD k 0) → w.getD k 0 ≤ w.getD i 0
  varied : (∃ i k, i < fits.length ∧ k < fits.length ∧ fits.getD i 0 ≠ fits.getD k 0) → ∃ i k, i < fits.length ∧ k < fits.length ∧ w.getD i 0 ≠ w.getD k 0

theorem getD_some {l : List ℝ} {i : ℕ} (h : i < l.length) : l[i]? = some (l.getD i 0) := by
  simp [List.getD, List.getElem?_eq_getElem h]

theorem utilities_strict {hib : Bool} {fits w : List ℝ} (hl : w.length = fits.length)
    (h : ∀ (i j : Nat) (a b wa wb : ℝ), fits[i]? = some a → fits[j]? = some b → Ranking.Better hib a b → w[i]? = some wa → w[j]? = some wb → wb < wa) :
    Utilities hib fits w := by
  have key : ∀ i k, i < fits.length → k < fits.length → Ranking.Better hib (fits.getD i 0) (fits.getD k 0) → w.getD k 0 < w.getD i 0 := fun i k hi hk hb =>
    h i k _ _ _ _ (getD_some hi) (getD_some hk) hb (getD_some (hl ▸ hi)) (getD_some (hl ▸ hk))
  refine ⟨hl, fun i k hi hk hb => (key i k hi hk hb).le, ?_⟩
  rintro ⟨i, k, hi, hk, hne⟩
  rcases lt_or_gt_of_ne hne with hlt | hgt
  · cases hib
    · exact ⟨i, k, hi, hk, (key i k hi hk (by simpa [Ranking.Better] using hlt)).ne'⟩
    · exact ⟨i, k, hi, hk, (key k i hk hi (by simpa [Ranking.Better] using hlt)).ne⟩
  · cases hib
    · exact ⟨i, k, hi, hk, (key k i hk hi (by simpa [Ranking.Better] using hgt)).ne⟩
    · exact ⟨i, k, hi, hk, (key i k hi hk (by simpa [Ranking.Better] using hgt)).ne'⟩

/-- The fitnesses for which the program computes a gradient: at least two, and not all equal for `normalized` and `raw`, where equal fitnesses can make it divide by zero. -/
def Rankable (m : Method) (fits : List ℝ) : Prop := 2 ≤ fits.length ∧ (m = .normalized ∨ m = .raw → ∃ a ∈ fits, ∃ b ∈ fits, a ≠ b)

theorem rank_utilities {sort : Sorter ℝ} (hs : SorterSpec sort) (m : Method) (hib : Bool) (fits : List ℝ) (h : Rankable m fits) :
    Utilities hib fits (rank sort m hib fits) ∧ (m = .nes ∨ m = .centered ∨ m = .normalized → (rank sort m hib fits).sum = 0) := by
  obtain ⟨hn, hne⟩ := h
  cases m with
  | nes =>
    have hc := Ranking.C20_nes hs hib (List.replicate fits.length 0) fits (by simp) (by omega)
    have hl : (rank sort .nes hib fits).length = fits.length := by simp [rank, Ranking.nes, Ranking.scatter_length]
    refine ⟨⟨hl, fun i k hi hk hb => ?_, fun _ => ?_⟩, fun _ => hc.1⟩
    · exact hc.2.2 i k _ _ _ _ (getD_some hi) (getD_some hk) hb (getD_some (hl.symm ▸ hi)) (getD_some (hl.symm ▸ hk))
    · -- the best has a positive weight, the worst has none
      have hp := hc.2.1
      change (rank sort .nes hib fits).Perm _ at hp
      obtain ⟨S, hS⟩ : ∃ S, S = ((List.range fits.length).map fun k => Ranking.nesPaper fits.length (k + 1)).sum := ⟨_, rfl⟩
      have hSpos : 0 < S := hS ▸ Ranking.nes_sum_pos fits.length (by omega)
      rw [← hS] at hp
      have hN : (2 : ℝ) ≤ fits.length := by exact_mod_cast hn
      have h1 : 0 < Ranking.nesPaper fits.length (0 + 1) := by
        unfold Ranking.nesPaper
        have : 0 < Real.log ((fits.length : ℝ) / 2 + 1) := Real.log_pos (by linarith)
        simpa using this
      have h2 : Ranking.nesPaper fits.length (fits.length - 1 + 1) = 0 := by
        unfold Ranking.nesPaper
        rw [Nat.sub_add_cancel (by omega)]
        refine max_eq_left ?_
        have := Real.log_le_log (by linarith : (0 : ℝ) < (fits.length : ℝ) / 2 + 1) (by linarith : (fits.length : ℝ) / 2 + 1 ≤ fits.length)
        linarith
      have m1 : Ranking.nesPaper fits.length (0 + 1) / S - 1 / (fits.length : ℝ) ∈ rank sort .nes hib fits :=
        hp.mem_iff.mpr (List.mem_map.mpr ⟨0, List.mem_range.mpr (by omega), rfl⟩)
      have m2 : Ranking.nesPaper fits.length (fits.length - 1 + 1) / S - 1 / (fits.length : ℝ) ∈ rank sort .nes hib fits :=
        hp.mem_iff.mpr (List.mem_map.mpr ⟨fits.length - 1, List.mem_range.mpr (by omega), rfl⟩)
      obtain ⟨i, hi, e1⟩ := List.mem_iff_getElem.mp m1
      obtain ⟨k, hk, e2⟩ := List.mem_iff_getElem.mp m2
      refine ⟨i, k, hl ▸ hi, hl ▸ hk, ?_⟩
      rw [List.getD_eq_getElem _ _ hi, List.getD_eq_getElem _ _ hk, e1, e2, h2]
      have := div_pos h1 hSpos
      intro he
      rw [zero_div] at he
      linarith
  | centered =>
    have hc := Ranking.C19_centered hs hib (List.replicate fits.length 0) fits (by simp) hn
    exact ⟨utilities_strict (by simp [rank, Ranking.centered, Ranking.scatter_length]) hc.2.2, fun _ => hc.2.1⟩
  | linear =>
    have hc := Ranking.C19_linear hs hib (List.replicate fits.length 0) fits (by simp) hn
    exact ⟨utilities_strict (by simp [rank, Ranking.linear, Ranking.scatter_length]) hc.2, fun h => by simp at h⟩
  | normalized =>
    have hc := Ranking.C21_normalized hib fits hn (hne (.inl rfl))
    refine ⟨utilities_strict hc.1 hc.2.2.2, fun _ => ?_⟩
    have h2 := hc.2.1
    have hpos : (0 : ℝ) < (Ranking.normalized hib fits).length := by
      rw [hc.1]; exact_mod_cast (by omega : 0 < fits.length)
    exact (div_eq_zero_iff.mp h2).resolve_right hpos.ne'
  | raw =>
    have hc := Ranking.C21_raw hib fits
    exact ⟨utilities_strict hc.1 hc.2.2, fun h => by simp at h⟩

theorem Utilities.map {hib : Bool} {fits w : List ℝ} (h : Utilities hib fits w) {c : ℝ} (hc : 0 < c) (s : ℝ) : Utilities hib fits (w.map fun x => c * x - s) := by
  have e : ∀ i, i < fits.length → (w.map fun x => c * x - s).getD i 0 = c * w.getD i 0 - s := by
    intro i hi
    have hi' : i < w.length := h.length.symm ▸ hi
    rw [List.getD_eq_getElem _ _ (by simpa using hi'), List.getElem_map, List.getD_eq_getElem _ _ hi']
  refine ⟨by simp [h.length], fun i k hi hk hb => ?_, fun hv => ?_⟩
  · rw [e i hi, e k hk]
    have := mul_le_mul_of_nonneg_left (h.mono i k hi hk hb) hc.le
    linarith
  · obtain ⟨i, k, hi, hk, hne⟩ := h.varied hv
    refine ⟨i, k, hi, hk, ?_⟩
    rw [e i hi, e k hk]
    intro he
    exact hne (mul_left_cancel₀ hc.ne' (by linarith))

/-- Centred weights sum to zero. -/
theorem centered_utilities {sort : Sorter ℝ} (hs : SorterSpec sort) (m : Method) (hib : Bool) (fits : List ℝ) (h : Rankable m fits) :
    Utilities hib fits (centerWeights m.alreadyCentered (rank sort m hib fits)) ∧ (centerWeights m.alreadyCentered (rank sort m hib fits)).sum = 0 := by
  obtain ⟨h1, h2⟩ := rank_utilities hs m hib fits h
  cases ha : m.alreadyCentered with
  | true =>
    refine ⟨h1, h2 ?_⟩
    cases m <;> simp [Method.alreadyCentered] at ha ⊢
  | false =>
    refine ⟨?_, ?_⟩
    · have := h1.map one_pos (Ranking.mean (rank sort m hib fits))
      simpa [centerWeights] using this
    · have hpos : ((rank sort m hib fits).length : ℝ) ≠ 0 := by
        rw [h1.length]; exact_mod_cast (by have := h.1; omega : fits.length ≠ 0)
      simp only [centerWeights, Bool.false_eq_true, if_false, Ranking.sum_map_sub_const, Ranking.mean]
      field_simp
      ring

/-! ### Moving the center -/

/-- Moving the center by `c` times the weighted sum of the displacements of the solutions: not worse; better if the solutions are not all equally good. -/
theorem progress {f : Vec ℝ d → ℝ} (hf : Linear f) (sense : Sense) (xs : Fin n → Vec ℝ d) (mu mu' : Vec ℝ d) (w : List ℝ)
    (hw : Utilities (decide (sense = .max)) ((List.ofFn xs).map f) w) (h0 : w.sum = 0) {c : ℝ} (hc : 0 ≤ c) (hmu : ∀ j, mu' j = mu j + c * ∑ i : Fin n, w.getD i 0 * (xs i j - mu j)) :
    NotWorse sense (f mu') (f mu) ∧ (0 < c → (∃ i k, f (xs i) ≠ f (xs k)) → StrictlyBetter sense (f mu') (f mu)) := by
  obtain ⟨a, b, hf⟩ := hf
  have hl : w.length = n := by simpa using hw.length
  have hsum : ∑ i : Fin n, w.getD i 0 = 0 := by
    rw [← h0]
    subst hl
    rw [← Fin.sum_univ_getElem]
    exact Finset.sum_congr rfl fun i _ => List.getD_eq_getElem _ _ i.2
  have hfit : ∀ i : Fin n, ((List.ofFn xs).map f).getD i 0 = f (xs i) := by
    intro i
    rw [List.getD_eq_getElem _ _ (by simp)]
    simp
  have hlen : ((List.ofFn xs).map f).length = n := by simp
  have hdiff : f mu' - f mu = c * ∑ i : Fin n, w.getD i 0 * f (xs i) := by
    have e1 : f mu' - f mu = ∑ j, a j * (c * ∑ i : Fin n, w.getD i 0 * (xs i j - mu j)) := by
      rw [hf, hf, add_sub_add_left_eq_sub, ← Finset.sum_sub_distrib]
      exact Finset.sum_congr rfl fun j _ => by rw [hmu]; ring
    have e2 : ∑ i : Fin n, w.getD i 0 * f (xs i) = ∑ i : Fin n, w.getD i 0 * ∑ j, a j * (xs i j - mu j) := by
      have : ∀ i : Fin n, w.getD i 0 * f (xs i) = w.getD i 0 * (∑ j, a j * (xs i j - mu j)) + w.getD i 0 * f mu := by
        intro i
        rw [hf (xs i), hf mu]
        have : ∑ j, a j * (xs i j - mu j) = ∑ j, a j * xs i j - ∑ j, a j * mu j := by
          rw [← Finset.sum_sub_distrib]; exact Finset.sum_congr rfl fun j _ => by ring
        rw [this]; ring
      rw [Finset.sum_congr rfl fun i _ => this i, Finset.sum_add_distrib, ← Finset.sum_mul, hsum, zero_mul, add_zero]
    rw [e1, e2]
    simp only [Finset.mul_sum]
    rw [Finset.sum_comm]
    exact Finset.sum_congr rfl fun i _ => Finset.sum_congr rfl fun j _ => by ring
  have hvar : (∃ i k, f (xs i) ≠ f (xs k)) → ∃ i k : Fin n, w.getD i 0 ≠ w.getD k 0 := by
    rintro ⟨i, k, hik⟩
    obtain ⟨i', k', hi, hk, hne⟩ := hw.varied ⟨i, k, by rw [hlen]; exact i.2, by rw [hlen]; exact k.2, by rw [hfit, hfit]; exact hik⟩
    rw [hlen] at hi hk
    exact ⟨⟨i', hi⟩, ⟨k', hk⟩, hne⟩
  cases sense with
  | max =>
    have hm : ∀ i k : Fin n, f (xs k) < f (xs i) → w.getD k 0 ≤ w.getD i 0 := fun i k h =>
      hw.mono i k (by rw [hlen]; exact i.2) (by rw [hlen]; exact k.2) (by rw [hfit, hfit]; simpa [Ranking.Better] using h)
    obtain ⟨p1, p2⟩ := product (w := fun i : Fin n => w.getD i 0) (y := fun i => f (xs i)) hm hsum
    refine ⟨?_, fun hc' hne => ?_⟩
    · have := mul_nonneg hc p1
      simp only [NotWorse]; linarith
    · have := mul_pos hc' (p2 (hvar hne) hne)
      simp only [StrictlyBetter]; linarith
  | min =>
    have hm : ∀ i k : Fin n, - f (xs k) < - f (xs i) → w.getD k 0 ≤ w.getD i 0 := fun i k h =>
      hw.mono i k (by rw [hlen]; exact i.2) (by rw [hlen]; exact k.2) (by rw [hfit, hfit]; simpa [Ranking.Better] using h)
    obtain ⟨p1, p2⟩ := product (w := fun i : Fin n => w.getD i 0) (y := fun i => - f (xs i)) hm hsum
    have e : ∑ i : Fin n, w.getD i 0 * - f (xs i) = - ∑ i : Fin n, w.getD i 0 * f (xs i) := by simp
    rw [e] at p1 p2
    refine ⟨?_, fun hc' hne => ?_⟩
    · have := mul_nonneg hc p1
      simp only [NotWorse]; linarith
    · obtain ⟨i, k, hik⟩ := hne
      have := mul_pos hc' (p2 (hvar ⟨i, k, hik⟩) ⟨i, k, fun h => hik (neg_injective h)⟩)
      simp only [StrictlyBetter]; linarith

/-- The same for a population in a list. -/
theorem progressL {f : Vec ℝ d → ℝ} (hf : Linear f) (sense : Sense) (samples : List (Vec ℝ d)) (mu mu' : Vec ℝ d) (w : List ℝ)
    (hw : Utilities (decide (sense = .max)) (samples.map f) w) (h0 : w.sum = 0) {c : ℝ} (hc : 0 ≤ c)
    (hmu : ∀ j, mu' j = mu j + c * weightedSum w (samples.map fun x => fun j => x j - mu j) j) :
    NotWorse sense (f mu') (f mu) ∧ (0 < c → (∃ x ∈ samples, ∃ y ∈ samples, f x ≠ f y) → StrictlyBetter sense (f mu') (f mu)) := by
  have e : samples = List.ofFn samples.get := (List.ofFn_get samples).symm
  obtain ⟨h1, h2⟩ := progress hf sense samples.get mu mu' w (by rwa [← e]) h0 hc (fun j => by
    rw [hmu j]
    conv_lhs => rw [e, List.map_ofFn, Function.comp_def, weightedSum_getD])
  refine ⟨h1, fun hc' hne => h2 hc' ?_⟩
  obtain ⟨x, hx, y, hy, hxy⟩ := hne
  obtain ⟨i, rfl⟩ := List.mem_iff_get.mp hx
  obtain ⟨k, rfl⟩ := List.mem_iff_get.mp hy
  exact ⟨i, k, hxy⟩

/-- The weights of a varied population are not all zero. -/
theorem abs_pos {hib : Bool} {fits w : List ℝ} (hw : Utilities hib fits w) (hne : ∃ a ∈ fits, ∃ b ∈ fits, a ≠ b) : 0 < (w.map absK).sum := by
  obtain ⟨a, ha, b, hb, hab⟩ := hne
  obtain ⟨i, hi, rfl⟩ := List.mem_iff_getElem.mp ha
  obtain ⟨k, hk, rfl⟩ := List.mem_iff_getElem.mp hb
  obtain ⟨i', k', hi', hk', hne⟩ := hw.varied ⟨i, k, hi, hk, by rwa [List.getD_eq_getElem _ _ hi, List.getD_eq_getElem _ _ hk]⟩
  rw [← hw.length] at hi' hk'
  rw [List.getD_eq_getElem _ _ hi', List.getD_eq_getElem _ _ hk'] at hne
  have hnn : ∀ x ∈ w.map absK, 0 ≤ x := by
    intro x hx
    obtain ⟨y, -, rfl⟩ := List.mem_map.mp hx
    unfold absK
    split <;> linarith
  obtain ⟨y, hy, hy0⟩ : ∃ y ∈ w, y ≠ 0 := by
    by_contra hcon
    push Not at hcon
    exact hne ((hcon _ (List.getElem_mem hi')).trans (hcon _ (List.getElem_mem hk')).symm)
  have hpos : 0 < absK y := by
    unfold absK
    split
    · linarith
    · exact lt_of_le_of_ne (by linarith) hy0.symm
  exact lt_of_lt_of_le hpos (List.single_le_sum hnn _ (List.mem_map.mpr ⟨y, hy, rfl⟩))

theorem abs_nonneg (w : List ℝ) : 0 ≤ (w.map absK).sum := by
  refine List.sum_nonneg fun x hx => ?_
  obtain ⟨y, -, rfl⟩ := List.mem_map.mp hx
  unfold absK
  split <;> linarith

theorem divide_factor {hib : Bool} (opt : Option DivideBy) {fits w : List ℝ} (hw : Utilities hib fits w) (hn : 2 ≤ fits.length) :
    ∃ c : ℝ, 0 ≤ c ∧ ((∃ a ∈ fits, ∃ b ∈ fits, a ≠ b) → 0 < c) ∧ ∀ (g : Vec ℝ d) (j : Fin d), divideGrad opt g w j = c * g j := by
  have hl := hw.length
  cases opt with
  | none => exact ⟨1, zero_le_one, fun _ => one_pos, fun g j => (one_mul _).symm⟩
  | some b =>
    cases b with
    | numSolutions =>
      have : (0 : ℝ) < (w.length : ℝ) := by exact_mod_cast (by omega : 0 < w.length)
      exact ⟨_, (inv_pos.mpr this).le, fun _ => inv_pos.mpr this, fun g j => div_eq_inv_mul _ _⟩
    | numDirections =>
      have : (0 : ℝ) < ((w.length / 2 : ℕ) : ℝ) := by exact_mod_cast (by omega : 0 < w.length / 2)
      exact ⟨_, (inv_pos.mpr this).le, fun _ => inv_pos.mpr this, fun g j => div_eq_inv_mul _ _⟩
    | totalWeight => exact ⟨_, inv_nonneg.mpr (abs_nonneg w), fun h => inv_pos.mpr (abs_pos hw h), fun g j => div_eq_inv_mul _ _⟩

theorem varied_fits {f : Vec ℝ d → ℝ} {samples : List (Vec ℝ d)} (h : ∃ x ∈ samples, ∃ y ∈ samples, f x ≠ f y) : ∃ a ∈ samples.map f, ∃ b ∈ samples.map f, a ≠ b := by
  obtain ⟨x, hx, y, hy, hxy⟩ := h
  exact ⟨_, List.mem_map.mpr ⟨x, hx, rfl⟩, _, List.mem_map.mpr ⟨y, hy, rfl⟩, hxy⟩

/-! ### PGPE -/

/-- The population of a generation of PGPE. -/
noncomputable def population (p : Pgpe) (s : Vec ℝ d × Vec ℝ d) (zs : List (Vec ℝ d)) : List (Vec ℝ d) :=
  if p.symmetric then zs.flatMap fun z => [fun j => s.1 j + s.2 j * z j, fun j => s.1 j - s.2 j * z j] else zs.map fun z => fun j => s.1 j + s.2 j * z j

theorem sample_eq (zs : List (Vec ℝ d)) (s : Vec ℝ d × Vec ℝ d) : sample zs s = zs.map fun z => fun j => s.1 j + s.2 j * z j := by
  refine List.ext_getElem (by simp [sample, makeGaussian]) fun i h1 h2 => ?_
  have hi : i < zs.length := by simpa using h2
  simp only [sample, makeGaussian, List.getElem_map, List.getElem_range, List.getD_eq_getElem _ _ hi]
  funext j
  ring

theorem symmetric_eq (zs : List (Vec ℝ d)) (s : Vec ℝ d × Vec ℝ d) :
    makeGaussianSymmetric (2 * zs.length) (fun i => zs.getD i 0) s.1 s.2 = .ok (zs.flatMap fun z => [fun j => s.1 j + s.2 j * z j, fun j => s.1 j - s.2 j * z j]) := by
  rw [makeGaussianSymmetric, if_neg (by omega)]
  dsimp only
  congr 1
  rw [List.map_map, List.map_map]
  have key : ∀ (g : ℕ → Vec ℝ d) (F : Vec ℝ d → List (Vec ℝ d)) (zs : List (Vec ℝ d)), (∀ i (h : i < zs.length), [g (2 * i), g (2 * i + 1)] = F (zs[i])) → (List.range (2 * zs.length)).map g = zs.flatMap F := by
    intro g F zs
    induction zs generalizing g with
    | nil => intro _; rfl
    | cons z zs ih =>
      intro h
      rw [List.flatMap_cons, ← ih (fun i => g (i + 2)) fun i hi => by
        have := h (i + 1) (by simpa using hi)
        rw [List.getElem_cons_succ] at this
        exact this]
      have h0 := h 0 (by simp)
      rw [List.getElem_cons_zero] at h0
      rw [← h0, List.length_cons, show 2 * (zs.length + 1) = 2 * zs.length + 1 + 1 by ring, List.range_succ_eq_map, List.range_succ_eq_map]
      simp [Function.comp_def]
  refine key _ _ zs fun i hi => ?_
  have h1 : (2 * i) % 2 = 0 := by omega
  have h2 : (2 * i + 1) % 2 ≠ 0 := by omega
  have h3 : (2 * i) / 2 = i := by omega
  have h4 : (2 * i + 1) / 2 = i := by omega
  simp only [Function.comp_apply, h1, h2, h3, h4, if_true, if_false, List.getD_eq_getElem _ _ hi]
  congr 1
  · funext j; ring
  · congr 1; funext j; ring

/-- The halved differences of the weights of mirrored solutions, in one direction, are the weights of both. -/
theorem mirrored_sum (w : List ℝ) (zs : List (Vec ℝ d)) (s : Vec ℝ d × Vec ℝ d) (hl : w.length = 2 * zs.length) (j : Fin d) :
    weightedSum (List.zipWith (fun a b => (a - b) / 2) (evens w) (odds w)) ((evens (zs.flatMap fun z => [fun j => s.1 j + s.2 j * z j, fun j => s.1 j - s.2 j * z j])).map fun x => fun j => x j - s.1 j) j =
      1 / 2 * weightedSum w ((zs.flatMap fun z => [fun j => s.1 j + s.2 j * z j, fun j => s.1 j - s.2 j * z j]).map fun x => fun j => x j - s.1 j) j := by
  induction zs generalizing w with
  | nil => simp [weightedSum, evens]
  | cons z zs ih =>
    match w, hl with
    | [], hl => simp at hl
    | [_], hl => simp at hl; omega
    | a :: b :: w, hl =>
      have := ih w (by simp at hl; omega)
      simp only [weightedSum, List.flatMap_cons, List.cons_append, List.nil_append, evens, odds, List.map_cons, List.zipWith_cons_cons, List.sum_cons] at this ⊢
      rw [this]
      ring

/-- C174 for PGPE, with mirrored solutions or not, whatever the gradient is divided by and whichever ranking is used: on a linear fitness function no generation makes the center worse, and a generation
whose solutions are not all equally good makes it better. -/
theorem C174_pgpe {sort : Sorter ℝ} (hs : SorterSpec sort) (p : Pgpe) (hlr : 0 ≤ p.lrMu) {f : Vec ℝ d → ℝ} (hf : Linear f) (s : Vec ℝ d × Vec ℝ d) (zs : List (Vec ℝ d))
    (hr : Rankable p.method ((population p s zs).map f)) :
    ∃ s', pgpeGen sort p f s zs = .ok s' ∧ NotWorse p.sense (f s'.1) (f s.1) ∧
      (0 < p.lrMu → (∃ x ∈ population p s zs, ∃ y ∈ population p s zs, f x ≠ f y) → StrictlyBetter p.sense (f s'.1) (f s.1)) := by
  obtain ⟨hu, h0⟩ := centered_utilities hs p.method (decide (p.sense = .max)) _ hr
  obtain ⟨c, hc0, hc1, hc⟩ := divide_factor (d := d) p.divMu hu hr.1
  obtain ⟨w, hw⟩ : ∃ w, w = centerWeights p.method.alreadyCentered (rank sort p.method (decide (p.sense = .max)) ((population p s zs).map f)) := ⟨_, rfl⟩
  rw [← hw] at hu h0 hc
  cases hsym : p.symmetric with
  | false =>
    have hpop : population p s zs = sample zs s := by rw [sample_eq, population, hsym]; rfl
    refine ⟨_, by simp only [pgpeGen, hsym]; rfl, ?_⟩
    obtain ⟨q1, q2⟩ := progressL hf p.sense (population p s zs) s.1
      (updateSeparable p.lrMu p.lrSigma s.1 s.2 (plainGradients p.divMu p.divSigma s.1 s.2 p.method.alreadyCentered (sample zs s) (utilities sort p.method p.sense f (sample zs s)))).1
      w hu h0 (mul_nonneg hlr hc0) fun j => by
        simp only [updateSeparable, plainGradients, utilities, ← hpop, ← hw, hc]
        ring
    exact ⟨q1, fun hl hv => q2 (mul_pos hl (hc1 (varied_fits hv))) hv⟩
  | true =>
    have hpop : population p s zs = zs.flatMap fun z => [fun j => s.1 j + s.2 j * z j, fun j => s.1 j - s.2 j * z j] := by rw [population, hsym]; rfl
    have hlen : w.length = 2 * zs.length := by
      rw [hu.length, hpop]
      simp [mul_comm]
    refine ⟨_, by simp only [pgpeGen, hsym, if_true, symmetric_eq, ← hpop]; rfl, ?_⟩
    obtain ⟨q1, q2⟩ := progressL hf p.sense (population p s zs) s.1
      (updateSeparable p.lrMu p.lrSigma s.1 s.2 (symmetricGradients p.divMu p.divSigma s.1 s.2 p.method.alreadyCentered (population p s zs) (utilities sort p.method p.sense f (population p s zs)))).1
      w hu h0 (c := p.lrMu * (c * (1 / 2))) (mul_nonneg hlr (mul_nonneg hc0 (by norm_num))) fun j => by
        have := mirrored_sum w zs s hlen j
        rw [← hpop] at this
        simp only [updateSeparable, symmetricGradients, utilities, ← hw, hc, this]
        ring
    exact ⟨q1, fun hl hv => q2 (mul_pos hl (mul_pos (hc1 (varied_fits hv)) (by norm_num))) hv⟩

/-! ### SNES -/

/-- C174 for SNES, with the rankings whose utilities sum to zero. -/
theorem C174_snes {sort : Sorter ℝ} (hs : SorterSpec sort) {m : Method} (hm : m = .nes ∨ m = .centered ∨ m = .normalized) (sense : Sense) {lrMu : ℝ} (hlr : 0 ≤ lrMu) (lrSigma : ℝ) {f : Vec ℝ d → ℝ} (hf : Linear f)
    (s : Vec ℝ d × Vec ℝ d) (zs : List (Vec ℝ d)) (hr : Rankable m ((sample zs s).map f)) :
    NotWorse sense (f (snesGen sort m sense lrMu lrSigma f s zs).1) (f s.1) ∧
      (0 < lrMu → (∃ x ∈ sample zs s, ∃ y ∈ sample zs s, f x ≠ f y) → StrictlyBetter sense (f (snesGen sort m sense lrMu lrSigma f s zs).1) (f s.1)) := by
  obtain ⟨hu, h0⟩ := rank_utilities hs m (decide (sense = .max)) _ hr
  have h0 := h0 hm
  obtain ⟨w, hw⟩ : ∃ w, w = rank sort m (decide (sense = .max)) ((sample zs s).map f) := ⟨_, rfl⟩
  rw [← hw] at hu h0
  by_cases hnes : m = .nes
  · obtain ⟨q1, q2⟩ := progressL hf sense (sample zs s) s.1 (snesGen sort m sense lrMu lrSigma f s zs).1 w hu h0 hlr fun j => by
      subst hnes
      simp only [snesGen, expGradients, utilities, ← hw, decide_true, if_true]
    exact ⟨q1, q2⟩
  · have e : ∀ rows : List (Vec ℝ d), ∀ j, weightedSum (w.map fun x => x / (w.map absK).sum) rows j = (w.map absK).sum⁻¹ * weightedSum w rows j := by
      intro rows j
      obtain ⟨S, -⟩ : ∃ S, S = (w.map absK).sum := ⟨_, rfl⟩
      have : ∀ (w : List ℝ) (S : ℝ), weightedSum (w.map fun x => x / S) rows j = S⁻¹ * weightedSum w rows j := by
        intro w S
        unfold weightedSum
        induction rows generalizing w with
        | nil => simp
        | cons r rows ih =>
          cases w with
          | nil => simp
          | cons a w =>
            simp only [List.map_cons, List.zipWith_cons_cons, List.sum_cons, ih]
            ring
      exact this _ _
    obtain ⟨q1, q2⟩ := progressL hf sense (sample zs s) s.1 (snesGen sort m sense lrMu lrSigma f s zs).1 w hu h0 (c := lrMu * (w.map absK).sum⁻¹) (mul_nonneg hlr (inv_nonneg.mpr (abs_nonneg w))) fun j => by
      simp only [snesGen, expGradients, utilities, ← hw, hnes, decide_false, Bool.false_eq_true, if_false, e]
      ring
    exact ⟨q1, fun hl hv => q2 (mul_pos hl (inv_pos.mpr (abs_pos hu (varied_fits hv)))) hv⟩

/-! ### XNES -/

/-- C174 for XNES, with every ranking. -/
theorem C174_xnes {sort : Sorter ℝ} (hs : SorterSpec sort) (m : Method) (sense : Sense) {lrMu : ℝ} (hlr : 0 ≤ lrMu) (lrSigma : ℝ) {f : Vec ℝ d → ℝ} (hf : Linear f)
    (s : ExpGaussian.State d) (hA : s.Ainv * s.A = 1) (zs : List (Vec ℝ d)) (hr : Rankable m ((zs.map (ExpGaussian.toGlobal s)).map f)) :
    ∃ s', xnesGen sort m sense lrMu lrSigma f s zs = .ok s' ∧ s'.Ainv * s'.A = 1 ∧ NotWorse sense (f s'.mu) (f s.mu) ∧
      (0 < lrMu → (∃ x ∈ zs.map (ExpGaussian.toGlobal s), ∃ y ∈ zs.map (ExpGaussian.toGlobal s), f x ≠ f y) → StrictlyBetter sense (f s'.mu) (f s.mu)) := by
  obtain ⟨hu, h0⟩ := centered_utilities hs m (decide (sense = .max)) _ hr
  obtain ⟨w, hw⟩ : ∃ w, w = centerWeights m.alreadyCentered (rank sort m (decide (sense = .max)) ((zs.map (ExpGaussian.toGlobal s)).map f)) := ⟨_, rfl⟩
  rw [← hw] at hu h0
  have hw' : w = if m.alreadyCentered then utilities sort m sense f (zs.map (ExpGaussian.toGlobal s)) else
      (utilities sort m sense f (zs.map (ExpGaussian.toGlobal s))).map fun v => v - (utilities sort m sense f (zs.map (ExpGaussian.toGlobal s))).sum / (utilities sort m sense f (zs.map (ExpGaussian.toGlobal s))).length := hw
  have hAA : s.A * s.Ainv = 1 := mul_eq_one_comm.mp hA
  have hinv : ∀ X : Matrix (Fin d) (Fin d) ℝ, NormedSpace.exp ((-1/2 : ℝ) • X) * s.Ainv * (s.A * NormedSpace.exp ((1/2 : ℝ) • X)) = 1 := by
    intro X
    have : NormedSpace.exp ((-1/2 : ℝ) • X) * s.Ainv * (s.A * NormedSpace.exp ((1/2 : ℝ) • X)) = NormedSpace.exp ((-1/2 : ℝ) • X) * (s.Ainv * s.A) * NormedSpace.exp ((1/2 : ℝ) • X) := by
      simp only [Matrix.mul_assoc]
    rw [this, hA, mul_one, show (-1/2 : ℝ) • X = -((1/2 : ℝ) • X) by rw [← neg_smul]; norm_num, Matrix.exp_neg]
    exact Matrix.nonsing_inv_mul _ ((Matrix.isUnit_iff_isUnit_det _).mp (Matrix.isUnit_exp _))
  have move : ∀ (w : List ℝ) (xs : List (Vec ℝ d)) (j : Fin d),
      s.A.mulVec (List.zipWith (fun w z => w • z) w (xs.map (ExpGaussian.toLocal s))).sum j = weightedSum w (xs.map fun x => fun j => x j - s.mu j) j := by
    intro w xs j
    induction xs generalizing w with
    | nil => simp [weightedSum]
    | cons x xs ih =>
      cases w with
      | nil => simp [weightedSum]
      | cons a w =>
        have := ih w
        simp only [weightedSum, List.map_cons, List.zipWith_cons_cons, List.sum_cons, Matrix.mulVec_add, Pi.add_apply] at this ⊢
        rw [this]
        congr 1
        rw [Matrix.mulVec_smul, ExpGaussian.toLocal, Matrix.mulVec_mulVec, hAA, Matrix.one_mulVec]
        simp
  refine ⟨_, rfl, hinv _, ?_⟩
  exact progressL hf sense (zs.map (ExpGaussian.toGlobal s)) s.mu _ w hu h0 hlr fun j => by
    simp only [ExpGaussian.gradients, ← hw', Matrix.mulVec_smul, Pi.add_apply, Pi.smul_apply, smul_eq_mul, move]

/-! ### Runs -/

theorem notWorse_trans {sense : Sense} {a b c : ℝ} (h1 : NotWorse sense a b) (h2 : NotWorse sense b c) : NotWorse sense a c := by
  cases sense
  · exact le_trans h1 h2
  · exact le_trans h2 h1

theorem notWorse_refl (sense : Sense) (a : ℝ) : NotWorse sense a a := by cases sense <;> exact le_rfl

theorem rankable_of {m : Method} (hm : m = .nes ∨ m = .centered ∨ m = .linear) {fits : List ℝ} (h : 2 ≤ fits.length) : Rankable m fits :=
  ⟨h, fun hc => by rcases hm with rfl | rfl | rfl <;> simp at hc⟩

/-- C174: over any number of generations of PGPE, the center is never worse than where it started. -/
theorem C174_pgpe_run {sort : Sorter ℝ} (hs : SorterSpec sort) (p : Pgpe) (hm : p.method = .nes ∨ p.method = .centered ∨ p.method = .linear) (hlr : 0 ≤ p.lrMu) {f : Vec ℝ d → ℝ} (hf : Linear f)
    (zss : List (List (Vec ℝ d))) (hz : ∀ zs ∈ zss, 2 ≤ zs.length) (s : Vec ℝ d × Vec ℝ d) :
    ∃ s', pgpeRun sort p f s zss = .ok s' ∧ NotWorse p.sense (f s'.1) (f s.1) := by
  induction zss generalizing s with
  | nil => exact ⟨s, rfl, notWorse_refl _ _⟩
  | cons zs zss ih =>
    have h2 := hz zs (by simp)
    obtain ⟨s1, e1, n1, -⟩ := C174_pgpe hs p hlr hf s zs (rankable_of hm (by
      unfold population
      split <;> simp <;> omega))
    obtain ⟨s2, e2, n2⟩ := ih (fun zs h => hz zs (by simp [h])) s1
    exact ⟨s2, by simp only [pgpeRun, e1]; exact e2, notWorse_trans n2 n1⟩

/-- C174: over any number of generations of SNES. -/
theorem C174_snes_run {sort : Sorter ℝ} (hs : SorterSpec sort) {m : Method} (hm : m = .nes ∨ m = .centered) (sense : Sense) {lrMu : ℝ} (hlr : 0 ≤ lrMu) (lrSigma : ℝ) {f : Vec ℝ d → ℝ} (hf : Linear f)
    (zss : List (List (Vec ℝ d))) (hz : ∀ zs ∈ zss, 2 ≤ zs.length) (s : Vec ℝ d × Vec ℝ d) : NotWorse sense (f (snesRun sort m sense lrMu lrSigma f s zss).1) (f s.1) := by
  induction zss generalizing s with
  | nil => exact notWorse_refl _ _
  | cons zs zss ih =>
    have h2 := hz zs (by simp)
    have n1 := (C174_snes hs (m := m) (by tauto) sense hlr lrSigma hf s zs (rankable_of (by tauto) (by rw [sample_eq]; simpa using h2))).1
    exact notWorse_trans (ih (fun zs h => hz zs (by simp [h])) _) n1

/-- C174: over any number of generations of XNES. -/
theorem C174_xnes_run {sort : Sorter ℝ} (hs : SorterSpec sort) {m : Method} (hm : m = .nes ∨ m = .centered ∨ m = .linear) (sense : Sense) {lrMu : ℝ} (hlr : 0 ≤ lrMu) (lrSigma : ℝ) {f : Vec ℝ d → ℝ} (hf : Linear f)
    (zss : List (List (Vec ℝ d))) (hz : ∀ zs ∈ zss, 2 ≤ zs.length) (s : ExpGaussian.State d) (hA : s.Ainv * s.A = 1) :
    ∃ s', xnesRun sort m sense lrMu lrSigma f s zss = .ok s' ∧ NotWorse sense (f s'.mu) (f s.mu) := by
  induction zss generalizing s with
  | nil => exact ⟨s, rfl, notWorse_refl _ _⟩
  | cons zs zss ih =>
    have h2 := hz zs (by simp)
    obtain ⟨s1, e1, hA1, n1, -⟩ := C174_xnes hs m sense hlr lrSigma hf s hA zs (rankable_of hm (by simpa using h2))
    obtain ⟨s2, e2, n2⟩ := ih (fun zs h => hz zs (by simp [h])) s1 hA1
    exact ⟨s2, by simp only [xnesRun, e1]; exact e2, notWorse_trans n2 n1⟩

/-! ### The other rankings with SNES -/

/-- With the ranking `linear`, whose utilities do not sum to zero, a generation of SNES can make the center worse, and does so when all solutions are worse than the center: the fitness is the coordinate itself,
to be maximised; the center is 0, the solutions are -1 and -2. -/
theorem C174_snes_linear_can_worsen {sort : Sorter ℝ} (hs : SorterSpec sort) {lrMu : ℝ} (hlr : 0 < lrMu) (lrSigma : ℝ) :
    (snesGen sort .linear .max lrMu lrSigma (fun x : Vec ℝ 1 => x 0) (0, 1) [fun _ => -1, fun _ => -2]).1 0 < 0 := by
  obtain ⟨h1, h2⟩ := Ranking.C19_linear hs true [0, 0] [-1, -2] rfl (by simp)
  obtain ⟨w, hw⟩ : ∃ w : List ℝ, w = Ranking.linear sort true [0, 0] [-1, -2] := ⟨_, rfl⟩
  rw [← hw] at h1 h2
  have e : ((List.range ([-1, -2] : List ℝ).length).map fun (k : ℕ) => (k : ℝ) * (1 / ((([-1, -2] : List ℝ).length : ℝ) - 1))) = [0, 1] := by
    simp [List.range_succ]
    norm_num
  rw [e] at h1
  have hw' : w = [1, 0] := by
    match w, h1.length_eq with
    | [a, b], _ =>
      have hlt := h2 0 1 (-1) (-2) a b rfl rfl (by simp [Ranking.Better]) rfl rfl
      have ha : a ∈ [(0 : ℝ), 1] := h1.subset (by simp)
      have hb : b ∈ [(0 : ℝ), 1] := h1.subset (by simp)
      simp at ha hb
      rcases ha with rfl | rfl <;> rcases hb with rfl | rfl <;> first | rfl | (exfalso; linarith)
  have hu : rank sort .linear true (([fun _ => -1, fun _ => -2] : List (Vec ℝ 1)).map fun x => x 0) = [1, 0] := by
    rw [← hw', hw]; rfl
  have hsam : sample [fun _ => -1, fun _ => -2] ((0 : Vec ℝ 1), 1) = [fun _ => -1, fun _ => -2] := by
    rw [sample_eq]; simp
  simp only [snesGen, utilities, hsam, decide_true, hu, expGradients]
  norm_num [weightedSum, absK]
  exact hlr

/-! ### CEM -/

/-- The sign which turns a sense into maximisation. -/
def sgn : Sense → ℝ
  | .max => 1
  | .min => -1

theorem notWorse_sgn (sense : Sense) (a b : ℝ) : NotWorse sense a b ↔ sgn sense * b ≤ sgn sense * a := by
  cases sense <;> simp [NotWorse, sgn]

theorem better_sgn (sense : Sense) (a b : ℝ) : StrictlyBetter sense a b ↔ sgn sense * b < sgn sense * a := by
  cases sense <;> simp [StrictlyBetter, sgn]

/-- The new center of CEM has the average fitness of the elites, which are the best solutions. -/
theorem cem_center {sort : Sorter ℝ} (hs : SorterSpec sort) {ratio : ℝ} (h0 : 0 ≤ ratio) (h1 : ratio ≤ 1) (sense : Sense) {f : Vec ℝ d → ℝ} (hf : Linear f) (s : Vec ℝ d × Vec ℝ d) (zs : List (Vec ℝ d))
    (hk : 1 ≤ numElites zs.length ratio) :
    ∃ E : Finset ℕ, E ⊆ Finset.range zs.length ∧ E.card = numElites zs.length ratio ∧
      (∀ i ∈ E, ∀ j ∈ Finset.range zs.length, j ∉ E → sgn sense * f ((sample zs s).getD j 0) ≤ sgn sense * f ((sample zs s).getD i 0)) ∧
      f (cemGen sort ratio sense f s zs).1 = (∑ i ∈ E, f ((sample zs s).getD i 0)) / numElites zs.length ratio := by
  have hl : (sample zs s).length = zs.length := by rw [sample_eq]; simp
  obtain ⟨idx, hb, hc⟩ := C51_cem_update hs ratio h0 h1 (decide (sense = .max)) s.1 s.2 (sample zs s) ((sample zs s).map f) (by simp)
  rw [hl] at hb
  obtain ⟨b1, b2, b3, b4⟩ := hb
  have hk' : (numElites zs.length ratio : ℝ) ≠ 0 := by exact_mod_cast (by omega : numElites zs.length ratio ≠ 0)
  refine ⟨idx.toFinset, fun i hi => ?_, ?_, fun i hi j hj hje => ?_, ?_⟩
  · have := b3 i (List.mem_toFinset.mp hi)
    rw [Finset.mem_range]
    simpa [hl] using this
  · rw [List.toFinset_card_of_nodup b2, b1]
  · rw [Finset.mem_range] at hj
    rw [List.mem_toFinset] at hi hje
    have hi' : i < zs.length := by have := b3 i hi; simpa [hl] using this
    have q : ∀ i, i < zs.length → ((sample zs s).map f)[i]? = some (f ((sample zs s).getD i 0)) := by
      intro i hi
      rw [List.getElem?_map, List.getD_eq_getElem _ _ (by rw [hl]; exact hi), List.getElem?_eq_getElem (by rw [hl]; exact hi)]
      rfl
    have := b4 i hi j hje _ _ (q i hi') (q j hj)
    rw [← notWorse_sgn]
    cases sense <;> exact this
  · obtain ⟨a, b, hf⟩ := hf
    have hlen : (idx.length : ℝ) = numElites zs.length ratio := by rw [b1]
    have : ∀ j, (cemGen sort ratio sense f s zs).1 j = (∑ i ∈ idx.toFinset, (sample zs s).getD i 0 j) / numElites zs.length ratio := by
      intro j
      have := (hc j).1
      rw [List.length_map, hlen] at this
      rw [List.sum_toFinset _ b2]
      exact this
    rw [hf]
    simp only [this, hf, Finset.sum_add_distrib, Finset.sum_const, List.toFinset_card_of_nodup b2, nsmul_eq_mul, hlen]
    rw [Finset.sum_comm]
    simp only [← Finset.mul_sum, mul_div_assoc']
    rw [← Finset.sum_div]
    field_simp

/-- C174 for CEM: on a linear fitness function the new center is not worse than the average solution of the generation, and better if some solutions are left out and the solutions are not all equally good. -/
theorem C174_cem {sort : Sorter ℝ} (hs : SorterSpec sort) {ratio : ℝ} (h0 : 0 ≤ ratio) (h1 : ratio ≤ 1) (sense : Sense) {f : Vec ℝ d → ℝ} (hf : Linear f) (s : Vec ℝ d × Vec ℝ d) (zs : List (Vec ℝ d))
    (hk : 1 ≤ numElites zs.length ratio) :
    NotWorse sense (f (cemGen sort ratio sense f s zs).1) (((sample zs s).map f).sum / zs.length) ∧
    (numElites zs.length ratio < zs.length → (∃ x ∈ sample zs s, ∃ y ∈ sample zs s, f x ≠ f y) → StrictlyBetter sense (f (cemGen sort ratio sense f s zs).1) (((sample zs s).map f).sum / zs.length)) := by
  have hl : (sample zs s).length = zs.length := by rw [sample_eq]; simp
  obtain ⟨E, hE, hcard, hbest, hcen⟩ := cem_center hs h0 h1 sense hf s zs hk
  obtain ⟨g, hg⟩ : ∃ g : ℕ → ℝ, g = fun i => sgn sense * f ((sample zs s).getD i 0) := ⟨_, rfl⟩
  have hbest : ∀ i ∈ E, ∀ j ∈ Finset.range zs.length \ E, g j ≤ g i := by
    intro i hi j hj
    rw [Finset.mem_sdiff] at hj
    rw [hg]
    exact hbest i hi j hj.1 hj.2
  have hsum : ((sample zs s).map f).sum = ∑ i ∈ Finset.range zs.length, f ((sample zs s).getD i 0) := by
    rw [Finset.sum_range, ← hl, ← Fin.sum_univ_fun_getElem]
    exact Finset.sum_congr rfl fun i _ => by rw [List.getD_eq_getElem _ _ i.2]
  have hn : 0 < zs.length := by
    have := Finset.card_le_card hE
    rw [hcard, Finset.card_range] at this
    omega
  have hn' : (0 : ℝ) < zs.length := by exact_mod_cast hn
  have hk' : (0 : ℝ) < numElites zs.length ratio := by exact_mod_cast hk
  have hid : (zs.length : ℝ) * (∑ i ∈ E, g i) - (numElites zs.length ratio : ℝ) * ∑ i ∈ Finset.range zs.length, g i = ∑ i ∈ E, ∑ j ∈ Finset.range zs.length \ E, (g i - g j) := by
    have e1 : ∀ i, ∑ j ∈ Finset.range zs.length \ E, (g i - g j) = ∑ j ∈ Finset.range zs.length, (g i - g j) - ∑ j ∈ E, (g i - g j) := by
      intro i
      rw [← Finset.sum_sdiff hE]
      ring
    have e2 : ∑ i ∈ E, ∑ j ∈ E, (g i - g j) = 0 := by
      simp only [Finset.sum_sub_distrib, Finset.sum_const, nsmul_eq_mul]
      rw [← Finset.mul_sum]
      ring
    simp only [e1]
    rw [Finset.sum_sub_distrib, e2, sub_zero]
    simp only [Finset.sum_sub_distrib, Finset.sum_const, nsmul_eq_mul, Finset.card_range, hcard, ← Finset.mul_sum]
  have hdiff : sgn sense * f (cemGen sort ratio sense f s zs).1 - sgn sense * (((sample zs s).map f).sum / zs.length) =
      (∑ i ∈ E, ∑ j ∈ Finset.range zs.length \ E, (g i - g j)) / (zs.length * numElites zs.length ratio) := by
    rw [← hid, hcen, hsum, hg]
    simp only [← Finset.mul_sum]
    field_simp
  have hterm : ∀ i ∈ E, 0 ≤ ∑ j ∈ Finset.range zs.length \ E, (g i - g j) := fun i hi => Finset.sum_nonneg fun j hj => sub_nonneg.mpr (hbest i hi j hj)
  refine ⟨?_, fun hlt hne => ?_⟩
  · rw [notWorse_sgn, ← sub_nonneg, hdiff]
    exact div_nonneg (Finset.sum_nonneg hterm) (mul_pos hn' hk').le
  · rw [better_sgn, ← sub_pos, hdiff]
    refine div_pos ?_ (mul_pos hn' hk')
    by_contra hcon
    have hz : ∑ i ∈ E, ∑ j ∈ Finset.range zs.length \ E, (g i - g j) = 0 := le_antisymm (not_lt.mp hcon) (Finset.sum_nonneg hterm)
    have hz2 : ∀ i ∈ E, ∀ j ∈ Finset.range zs.length \ E, g i = g j := by
      intro i hi j hj
      have := (Finset.sum_eq_zero_iff_of_nonneg hterm).mp hz i hi
      have := (Finset.sum_eq_zero_iff_of_nonneg fun j hj => sub_nonneg.mpr (hbest i hi j hj)).mp this j hj
      linarith
    obtain ⟨i0, hi0⟩ : E.Nonempty := by rw [← Finset.card_pos, hcard]; omega
    obtain ⟨j0, hj0⟩ : (Finset.range zs.length \ E).Nonempty := by
      rw [← Finset.card_pos, Finset.card_sdiff_of_subset hE, Finset.card_range, hcard]; omega
    have hall : ∀ i < zs.length, g i = g j0 := by
      intro i hi
      by_cases hiE : i ∈ E
      · exact hz2 i hiE j0 hj0
      · rw [← hz2 i0 hi0 i (Finset.mem_sdiff.mpr ⟨Finset.mem_range.mpr hi, hiE⟩), hz2 i0 hi0 j0 hj0]
    obtain ⟨x, hx, y, hy, hxy⟩ := hne
    obtain ⟨i, hi, rfl⟩ := List.mem_iff_getElem.mp hx
    obtain ⟨k, hk, rfl⟩ := List.mem_iff_getElem.mp hy
    have h3 := (hall i (hl ▸ hi)).trans (hall k (hl ▸ hk)).symm
    simp only [hg, List.getD_eq_getElem _ _ hi, List.getD_eq_getElem _ _ hk] at h3
    have hsg : sgn sense ≠ 0 := by cases sense <;> simp [sgn]
    exact hxy (mul_left_cancel₀ hsg h3)

theorem best_sum {E R T : Finset ℕ} {g : ℕ → ℝ} (hT : T ⊆ R) (hcard : T.card = E.card) (hbest : ∀ i ∈ E, ∀ j ∈ R \ E, g j ≤ g i) : ∑ i ∈ T, g i ≤ ∑ i ∈ E, g i := by
  have h1 := Finset.sum_inter_add_sum_sdiff T E g
  have h2 := Finset.sum_inter_add_sum_sdiff E T g
  rw [Finset.inter_comm E T] at h2
  have hc : (T \ E).card = (E \ T).card := by
    have a1 := Finset.card_inter_add_card_sdiff T E
    have a2 := Finset.card_inter_add_card_sdiff E T
    rw [Finset.inter_comm E T] at a2
    omega
  have hnn : 0 ≤ ∑ i ∈ E \ T, ∑ j ∈ T \ E, (g i - g j) := Finset.sum_nonneg fun i hi => Finset.sum_nonneg fun j hj => by
    rw [Finset.mem_sdiff] at hi hj
    exact sub_nonneg.mpr (hbest i hi.1 j (Finset.mem_sdiff.mpr ⟨hT hj.1, hj.2⟩))
  simp only [Finset.sum_sub_distrib, Finset.sum_const, nsmul_eq_mul, ← Finset.mul_sum] at hnn
  rw [hc] at hnn
  rcases Nat.eq_zero_or_pos (E \ T).card with h0 | hpos
  · rw [h0, Finset.card_eq_zero] at hc
    rw [Finset.card_eq_zero] at h0
    rw [hc] at h1
    rw [h0] at h2
    simp at h1 h2
    linarith
  · have hp : (0 : ℝ) < (E \ T).card := by exact_mod_cast hpos
    have : 0 ≤ ∑ i ∈ E \ T, g i - ∑ j ∈ T \ E, g j := nonneg_of_mul_nonneg_right (by linarith [mul_sub ((E \ T).card : ℝ) (∑ i ∈ E \ T, g i) (∑ j ∈ T \ E, g j)]) hp
    linarith

/-- The fitness of a draw, on average that of the center. -/
theorem draw_mean {f : Vec ℝ d → ℝ} (hf : Linear f) (s : Vec ℝ d × Vec ℝ d) (i : Fin n) :
    Integrable (fun z : Fin n → Fin d → ℝ => f fun j => s.1 j + s.2 j * z i j) (draws n d) ∧ ∫ z : Fin n → Fin d → ℝ, f (fun j => s.1 j + s.2 j * z i j) ∂draws n d = f s.1 := by
  obtain ⟨a, b, hf⟩ := hf
  have e : ∀ z : Fin n → Fin d → ℝ, f (fun j => s.1 j + s.2 j * z i j) = f s.1 + 1 * ∑ j, (a j * s.2 j) * z i j := by
    intro z
    rw [hf, hf, one_mul, add_assoc, ← Finset.sum_add_distrib]
    congr 1
    exact Finset.sum_congr rfl fun j _ => by ring
  simp only [e]
  refine add_mean ?_ _ _
  have hk : ∀ k, Integrable (fun z : Fin n → Fin d → ℝ => (a k * s.2 k) * z i k) (draws n d) ∧ ∫ z : Fin n → Fin d → ℝ, (a k * s.2 k) * z i k ∂draws n d = 0 := by
    intro k
    refine ⟨(integrable_comp_eval (μ := fun _ : Fin n => std d) (i := i) (mean_coord k).1).const_mul _, ?_⟩
    rw [integral_const_mul, integral_comp_eval (μ := fun _ : Fin n => std d) (i := i) (f := fun z : Fin d → ℝ => z k) (mean_coord k).1.aestronglyMeasurable, (mean_coord k).2, mul_zero]
  refine ⟨integrable_finsetSum _ fun k _ => (hk k).1, ?_⟩
  rw [integral_finsetSum _ fun k _ => (hk k).1]
  exact Finset.sum_eq_zero fun k _ => (hk k).2

theorem Linear.continuous {f : Vec ℝ d → ℝ} (hf : Linear f) : Continuous f := by
  obtain ⟨a, b, hf⟩ := hf
  rw [funext hf]
  fun_prop

/-- C174 for CEM: on a linear fitness function the center is on average not worse after a generation than before; and better, if some solutions are left out and the search can sample a solution whose fitness is not
that of the center. -/
theorem C174_cem_average {sort : Sorter ℝ} (hs : SorterSpec sort) {ratio : ℝ} (h0 : 0 ≤ ratio) (h1 : ratio ≤ 1) (sense : Sense) {f : Vec ℝ d → ℝ} (hf : Linear f) (s : Vec ℝ d × Vec ℝ d)
    (hk : 1 ≤ numElites n ratio) :
    Integrable (fun z : Fin n → Fin d → ℝ => f (cemGen sort ratio sense f s (List.ofFn z)).1) (draws n d) ∧
    NotWorse sense (∫ z : Fin n → Fin d → ℝ, f (cemGen sort ratio sense f s (List.ofFn z)).1 ∂draws n d) (f s.1) ∧
    (numElites n ratio < n → (∃ z : Vec ℝ d, f (fun j => s.1 j + s.2 j * z j) ≠ f s.1) →
      StrictlyBetter sense (∫ z : Fin n → Fin d → ℝ, f (cemGen sort ratio sense f s (List.ofFn z)).1 ∂draws n d) (f s.1)) := by
  have hk' : (0 : ℝ) < numElites n ratio := by exact_mod_cast hk
  have hfc := hf.continuous
  obtain ⟨x, hx⟩ : ∃ x : (Fin n → Fin d → ℝ) → ℕ → Vec ℝ d, x = fun z i => if h : i < n then fun j => s.1 j + s.2 j * z ⟨i, h⟩ j else 0 := ⟨_, rfl⟩
  have hsam : ∀ (z : Fin n → Fin d → ℝ) i, (sample (List.ofFn z) s).getD i 0 = x z i := by
    intro z i
    rw [sample_eq, hx, List.map_ofFn]
    by_cases hi : i < n
    · rw [List.getD_eq_getElem _ _ (by simpa using hi)]
      simp [hi]
    · simp [hi]
  have hxc : ∀ i, Continuous fun z => x z i := by
    intro i
    rw [hx]
    by_cases hi : i < n
    · simp only [hi, dif_pos]
      fun_prop
    · simp only [hi, dif_neg, not_false_eq_true]
      fun_prop
  have hg : ∀ i, Continuous fun z => sgn sense * f (x z i) := fun i => continuous_const.mul (hfc.comp (hxc i))
  -- the elites are the best subset
  have hT : ((Finset.range n).powersetCard (numElites n ratio)).Nonempty := by
    obtain ⟨E, hE, hcard, -⟩ := cem_center hs h0 h1 sense hf s (List.ofFn (0 : Fin n → Fin d → ℝ)) (by simpa using hk)
    rw [List.length_ofFn] at hE hcard
    exact ⟨E, Finset.mem_powersetCard.mpr ⟨hE, hcard⟩⟩
  have hsup : ∀ z : Fin n → Fin d → ℝ, sgn sense * f (cemGen sort ratio sense f s (List.ofFn z)).1 =
      ((Finset.range n).powersetCard (numElites n ratio)).sup' hT (fun T => ∑ i ∈ T, sgn sense * f (x z i)) / numElites n ratio := by
    intro z
    obtain ⟨E, hE, hcard, hbest, hcen⟩ := cem_center hs h0 h1 sense hf s (List.ofFn z) (by simpa using hk)
    rw [List.length_ofFn] at hE hcard hbest hcen
    simp only [hsam] at hbest hcen
    rw [hcen, mul_div_assoc', Finset.mul_sum]
    congr 1
    refine le_antisymm (Finset.le_sup' (fun T => ∑ i ∈ T, sgn sense * f (x z i)) (Finset.mem_powersetCard.mpr ⟨hE, hcard⟩)) (Finset.sup'_le _ _ fun T hT => ?_)
    rw [Finset.mem_powersetCard] at hT
    exact best_sum hT.1 (hT.2.trans hcard.symm) fun i hi j hj => by
      rw [Finset.mem_sdiff] at hj
      exact hbest i hi j hj.1 hj.2
  obtain ⟨F, hF⟩ : ∃ F : (Fin n → Fin d → ℝ) → ℝ, F = fun z => sgn sense * f (cemGen sort ratio sense f s (List.ofFn z)).1 := ⟨_, rfl⟩
  have hFc : Continuous F := by
    rw [hF]
    simp only [hsup]
    refine Continuous.div_const (Continuous.finset_sup'_apply hT fun T _ => ?_) _
    exact continuous_finsetSum _ fun i _ => hg i
  have hsq : sgn sense * sgn sense = 1 := by cases sense <;> simp [sgn]
  have hFf : (fun z : Fin n → Fin d → ℝ => f (cemGen sort ratio sense f s (List.ofFn z)).1) = fun z => sgn sense * F z := by
    funext z
    rw [hF]
    dsimp only
    rw [← mul_assoc, hsq, one_mul]
  have hxi : ∀ i : Fin n, Integrable (fun z => sgn sense * f (x z i)) (draws n d) ∧ ∫ z, sgn sense * f (x z i) ∂draws n d = sgn sense * f s.1 := by
    intro i
    have e : ∀ z, f (x z i) = f fun j => s.1 j + s.2 j * z i j := fun z => by rw [hx]; simp
    have := draw_mean hf s i
    simp only [e]
    exact ⟨this.1.const_mul _, by rw [integral_const_mul, this.2]⟩
  have hFi : Integrable F (draws n d) := by
    have hb : Integrable (fun z : Fin n → Fin d → ℝ => ∑ i : Fin n, |sgn sense * f (x z i)|) (draws n d) := integrable_finsetSum _ fun i _ => (hxi i).1.abs
    refine Integrable.mono' hb hFc.aestronglyMeasurable (ae_of_all _ fun z => ?_)
    obtain ⟨E, hE, hcard, -, hcen⟩ := cem_center hs h0 h1 sense hf s (List.ofFn z) (by simpa using hk)
    rw [List.length_ofFn] at hE hcard hcen
    simp only [hsam] at hcen
    have hone : (1 : ℝ) ≤ numElites n ratio := by exact_mod_cast hk
    rw [hF]
    dsimp only
    rw [hcen, mul_div_assoc', Finset.mul_sum, Real.norm_eq_abs, abs_div, abs_of_pos hk']
    calc |∑ i ∈ E, sgn sense * f (x z i)| / numElites n ratio ≤ |∑ i ∈ E, sgn sense * f (x z i)| := div_le_self (_root_.abs_nonneg _) hone
      _ ≤ ∑ i ∈ E, |sgn sense * f (x z i)| := Finset.abs_sum_le_sum_abs _ _
      _ ≤ ∑ i ∈ Finset.range n, |sgn sense * f (x z i)| := Finset.sum_le_sum_of_subset_of_nonneg hE fun _ _ _ => _root_.abs_nonneg _
      _ = ∑ i : Fin n, |sgn sense * f (x z i)| := Finset.sum_range _
  -- the average solution
  have hn : 0 < n := by
    obtain ⟨T, hT⟩ := hT
    rw [Finset.mem_powersetCard] at hT
    have := Finset.card_le_card hT.1
    rw [hT.2, Finset.card_range] at this
    omega
  have hn' : (0 : ℝ) < n := by exact_mod_cast hn
  have hmean : ∀ z : Fin n → Fin d → ℝ, sgn sense * (((sample (List.ofFn z) s).map f).sum / (List.ofFn z).length) = (∑ i : Fin n, sgn sense * f (x z i)) / n := by
    intro z
    rw [List.length_ofFn, mul_div_assoc', sample_eq, List.map_ofFn, List.map_ofFn, List.sum_ofFn, Finset.mul_sum, hx]
    simp
  obtain ⟨A, hA⟩ : ∃ A : (Fin n → Fin d → ℝ) → ℝ, A = fun z => (∑ i : Fin n, sgn sense * f (x z i)) / n := ⟨_, rfl⟩
  have hAi : Integrable A (draws n d) := by
    rw [hA]
    exact (integrable_finsetSum _ fun i _ => (hxi i).1).div_const _
  have hAm : ∫ z, A z ∂draws n d = sgn sense * f s.1 := by
    rw [hA, integral_div, integral_finsetSum _ fun i _ => (hxi i).1]
    simp only [(hxi _).2, Finset.sum_const, Finset.card_univ, Fintype.card_fin, nsmul_eq_mul]
    field_simp
  have hAc : Continuous A := by
    rw [hA]
    exact (continuous_finsetSum _ fun (i : Fin n) _ => hg i).div_const _
  have hle : ∀ z, A z ≤ F z := by
    intro z
    have := (C174_cem hs h0 h1 sense hf s (List.ofFn z) (by simpa using hk)).1
    rw [notWorse_sgn, hmean] at this
    rw [hA, hF]
    exact this
  refine ⟨by rw [hFf]; exact hFi.const_mul _, ?_, fun hlt hne => ?_⟩
  · rw [notWorse_sgn, hFf, integral_const_mul, ← mul_assoc, hsq, one_mul, ← hAm]
    exact integral_mono hAi hFi hle
  · rw [better_sgn, hFf, integral_const_mul, ← mul_assoc, hsq, one_mul, ← hAm, ← sub_pos, ← integral_sub hFi hAi]
    have : (std d).IsOpenPosMeasure := Measure.pi.isOpenPosMeasure _
    have : (draws n d).IsOpenPosMeasure := Measure.pi.isOpenPosMeasure _
    obtain ⟨v, hv⟩ := hne
    obtain ⟨z, hz⟩ : ∃ z : Fin n → Fin d → ℝ, z = fun i => if i.1 = 0 then v else 0 := ⟨_, rfl⟩
    refine integral_pos_of_integrable_nonneg_nonzero (x := z) (hFc.sub hAc) (hFi.sub hAi) (fun z => sub_nonneg.mpr (hle z)) (sub_pos.mpr ?_).ne'
    have h3 := (C174_cem hs h0 h1 sense hf s (List.ofFn z) (by simpa using hk)).2 (by simpa using hlt) ?_
    · rw [better_sgn, hmean] at h3
      rw [hA, hF]
      exact h3
    · have m : ∀ i : Fin n, (fun j => s.1 j + s.2 j * z i j) ∈ sample (List.ofFn z) s := fun i => by
        rw [sample_eq, List.map_ofFn]
        exact List.mem_ofFn.mpr ⟨i, rfl⟩
      refine ⟨_, m ⟨0, hn⟩, _, m ⟨1, by omega⟩, ?_⟩
      rw [hz]
      simpa using hv

/-! ### The hypotheses can be met -/

/-- A linear fitness function of two coordinates. -/
def exFit (x : Vec ℝ 2) : ℝ := 5 + (3 * x 0 - x 1)

theorem exFit_linear : Linear exFit := ⟨![3, -1], 5, fun x => by simp [exFit, Fin.sum_univ_two]; ring⟩

example : ∃ s', pgpeGen exampleSorter ⟨true, some .numDirections, some .numDirections, .centered, .min, 1/2, 1/10⟩ exFit (0, 1) [![1, 0], ![0, 1]] = .ok s' ∧ exFit s'.1 < 5 := by
  obtain ⟨s', h1, -, h3⟩ := C174_pgpe exampleSorter_spec ⟨true, some .numDirections, some .numDirections, .centered, .min, 1/2, 1/10⟩ (by norm_num) exFit_linear ((0 : Vec ℝ 2), 1) [![1, 0], ![0, 1]]
    ⟨by simp [population], by simp⟩
  have e : exFit (0 : Vec ℝ 2) = 5 := by simp [exFit]
  have := h3 (by norm_num) ⟨![1, 0], by simp [population, funext_iff, Fin.forall_fin_two], ![0, 1], by simp [population, funext_iff, Fin.forall_fin_two], by norm_num [exFit]⟩
  simp only [StrictlyBetter, e] at this
  exact ⟨s', h1, this⟩

example (zss : List (List (Vec ℝ 2))) (h : ∀ zs ∈ zss, zs.length = 10) : exFit (snesRun exampleSorter .nes .min 1 (1/10) exFit ((0 : Vec ℝ 2), 1) zss).1 ≤ 5 := by
  have := C174_snes_run exampleSorter_spec (m := .nes) (.inl rfl) .min (lrMu := 1) zero_le_one (1/10) exFit_linear zss (fun zs hz => by rw [h zs hz]; norm_num) ((0 : Vec ℝ 2), 1)
  have e : exFit (0 : Vec ℝ 2) = 5 := by simp [exFit]
  simpa only [NotWorse, e] using this

example (zss : List (List (Vec ℝ 2))) (h : ∀ zs ∈ zss, zs.length = 10) : ∃ s', xnesRun exampleSorter .nes .max 1 (1/10) exFit (⟨0, 1, 1⟩ : ExpGaussian.State 2) zss = .ok s' ∧ 5 ≤ exFit s'.mu := by
  obtain ⟨s', h1, h2⟩ := C174_xnes_run exampleSorter_spec (m := .nes) (.inl rfl) .max (lrMu := 1) zero_le_one (1/10) exFit_linear zss (fun zs hz => by rw [h zs hz]; norm_num) (⟨0, 1, 1⟩ : ExpGaussian.State 2) (by simp)
  have e : exFit (0 : Vec ℝ 2) = 5 := by simp [exFit]
  exact ⟨s', h1, by simpa only [NotWorse, e] using h2⟩

example : 5 < ∫ z : Fin 4 → Fin 2 → ℝ, exFit (cemGen exampleSorter (1/2) .max exFit ((0 : Vec ℝ 2), 1) (List.ofFn z)).1 ∂draws 4 2 := by
  have h := (C174_cem_average (n := 4) exampleSorter_spec (ratio := 1/2) (by norm_num) (by norm_num) .max exFit_linear ((0 : Vec ℝ 2), 1) (by norm_num [numElites])).2.2 (by norm_num [numElites]) ⟨![1, 0], by simp [exFit]⟩
  have e : exFit (0 : Vec ℝ 2) = 5 := by simp [exFit]
  simpa only [StrictlyBetter, e] using h

end EvoTorch.LinearProgress
