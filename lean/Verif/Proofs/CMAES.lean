import Verif.Model.CMAES
import Verif.Spec.CMAES
import Verif.Spec.Selection
import Mathlib.Tactic.Linarith
import Mathlib.Tactic.Ring
import Mathlib.Tactic.Positivity
import Mathlib.Tactic.FieldSimp
import Mathlib.Algebra.BigOperators.Fin
import Mathlib.Algebra.Order.BigOperators.Ring.Finset
/-! Lemmas about the CMA-ES model. -/
namespace EvoTorch.CMAES
open Matrix Spec
variable {d n : Nat}

/-! ### Raw weights -/

theorem raw_pos {n i : Nat} (h : i < mu n) : 0 < rawWeight n i := by
  unfold rawWeight mu at *
  have h2 : 2 * (i + 1) ≤ n := by omega
  have h3 : (2 * ((i : ℝ) + 1)) ≤ n := by exact_mod_cast h2
  have : Real.log ((i : ℝ) + 1) < Real.log (((n : ℝ) + 1) / 2) := by
    apply Real.log_lt_log (by positivity); linarith
  linarith

theorem raw_nonpos {n i : Nat} (h : mu n ≤ i) : rawWeight n i ≤ 0 := by
  unfold rawWeight mu at *
  have h2 : n + 1 ≤ 2 * (i + 1) := by omega
  have h3 : ((n : ℝ) + 1) ≤ 2 * (i + 1) := by exact_mod_cast h2
  have : Real.log (((n : ℝ) + 1) / 2) ≤ Real.log ((i : ℝ) + 1) := by
    apply Real.log_le_log (by positivity); linarith
  linarith

theorem raw_anti {n i j : Nat} (h : i < j) : rawWeight n j < rawWeight n i := by
  unfold rawWeight
  have h3 : (i : ℝ) < j := by exact_mod_cast h
  have : Real.log ((i : ℝ) + 1) < Real.log ((j : ℝ) + 1) := by
    apply Real.log_lt_log (by positivity); linarith
  linarith

theorem list_sum_pos {l : List Nat} {f : Nat → ℝ} (hne : l ≠ []) (h : ∀ i ∈ l, 0 < f i) : 0 < (l.map f).sum := by
  induction l with
  | nil => exact absurd rfl hne
  | cons a l ih =>
    simp only [List.map_cons, List.sum_cons]
    by_cases hl : l = []
    · subst hl; simpa using h a (by simp)
    · have := ih hl fun i hi => h i (by simp [hi])
      have := h a (by simp); linarith

theorem list_sum_nonneg {l : List Nat} {f : Nat → ℝ} (h : ∀ i ∈ l, 0 ≤ f i) : 0 ≤ (l.map f).sum := by
  induction l with
  | nil => simp
  | cons a l ih =>
    simp only [List.map_cons, List.sum_cons]
    have := ih fun i hi => h i (by simp [hi])
    have := h a (by simp); linarith

theorem sumPos_pos {n : Nat} (h : 2 ≤ n) : 0 < sumPos n id (rawWeight n) := by
  apply list_sum_pos
  · simp [mu]; omega
  · intro i hi; exact raw_pos (List.mem_range.mp hi)

theorem sumPosSq_pos {n : Nat} (h : 2 ≤ n) : 0 < sumPos n (· ^ 2) (rawWeight n) := by
  apply list_sum_pos
  · simp [mu]; omega
  · intro i hi; exact pow_pos (raw_pos (List.mem_range.mp hi)) 2

theorem muEff_pos {n : Nat} (h : 2 ≤ n) : 0 < muEff n :=
  div_pos (pow_pos (sumPos_pos h) 2) (sumPosSq_pos h)

theorem sumNegAbs_pos {n : Nat} (h : 2 ≤ n) : 0 < sumNeg n abs (rawWeight n) := by
  have hlast : rawWeight n (n - 1) < 0 := by
    have h1 : mu n < n - 1 ∨ mu n = n - 1 := by unfold mu; omega
    rcases h1 with h1 | h1
    · exact lt_of_lt_of_le (raw_anti h1) (raw_nonpos le_rfl)
    · have : n = 2 := by unfold mu at h1; omega
      subst this
      unfold rawWeight
      have : Real.log (((2 : Nat) + 1) / 2) < Real.log (((2 - 1 : Nat) : ℝ) + 1) := by
        apply Real.log_lt_log <;> norm_num
      linarith
  unfold sumNeg
  have hsplit : n - mu n = (n - 1 - mu n) + 1 := by unfold mu; omega
  rw [hsplit, List.range_succ, List.map_append, List.sum_append]
  have h1 : 0 ≤ ((List.range (n - 1 - mu n)).map fun i => |rawWeight n (mu n + i)|).sum :=
    list_sum_nonneg fun i _ => abs_nonneg _
  have h2 : mu n + (n - 1 - mu n) = n - 1 := by unfold mu; omega
  simp only [List.map_cons, List.map_nil, List.sum_cons, List.sum_nil, h2]
  have := abs_pos.mpr hlast.ne
  linarith

/-! ### Weights -/

theorem weight_pos {o : Options} {d n i : Nat} (h : i < mu n) : 0 < weight o d n i := by
  have h2 : 2 ≤ n := by unfold mu at h; omega
  simp only [weight, h, if_true]
  exact div_pos (raw_pos h) (sumPos_pos h2)

theorem weight_anti {o : Options} {d n i j : Nat} (hij : i < j) (h : j < mu n) : weight o d n j < weight o d n i := by
  have h2 : 2 ≤ n := by unfold mu at h; omega
  have hi : i < mu n := by omega
  simp only [weight, h, hi, if_true]
  exact div_lt_div_of_pos_right (raw_anti hij) (sumPos_pos h2)

theorem list_sum_div (l : List Nat) (f : Nat → ℝ) (c : ℝ) : (l.map fun i => f i / c).sum = (l.map f).sum / c := by
  induction l with
  | nil => simp
  | cons a l ih => simp only [List.map_cons, List.sum_cons, ih]; ring

theorem weight_sum_pos {o : Options} {d n : Nat} (h : 2 ≤ n) : ((List.range (mu n)).map (weight o d n)).sum = 1 := by
  have : (List.range (mu n)).map (weight o d n) =
      (List.range (mu n)).map fun i => rawWeight n i / sumPos n id (rawWeight n) := by
    apply List.map_congr_left; intro i hi; simp [weight, List.mem_range.mp hi]
  rw [this, list_sum_div]
  exact div_self (sumPos_pos h).ne'

theorem alpha_le_posDef (o : Options) (d n : Nat) :
    alpha o d n ≤ (1 - cMu o d n - c1 o d n) / (d * cMu o d n) :=
  (min_le_right _ _).trans (min_le_right _ _)

/-- Learning rates which leave room for the old covariance. -/
structure ValidRates (o : Options) (d n : Nat) : Prop where
  c1_nonneg : 0 ≤ c1 o d n
  cMu_pos : 0 < cMu o d n
  sum_le : c1 o d n + cMu o d n ≤ 1

theorem alpha_nonneg {o : Options} {d n : Nat} (hn : 2 ≤ n) (h : ValidRates o d n) : 0 ≤ alpha o d n := by
  have hs : 0 ≤ sumNeg n (· ^ 2) (rawWeight n) := list_sum_nonneg fun i _ => sq_nonneg _
  have hm := muEff_pos hn
  unfold alpha
  refine le_min ?_ (le_min ?_ ?_)
  · have := div_nonneg h.c1_nonneg h.cMu_pos.le; linarith
  · have : 0 ≤ 2 * (sumNeg n id (rawWeight n) ^ 2 / sumNeg n (· ^ 2) (rawWeight n)) / (muEff n + 2) := by positivity
    linarith
  · exact div_nonneg (by linarith [h.sum_le]) (mul_nonneg (Nat.cast_nonneg _) h.cMu_pos.le)

theorem alpha_pos {o : Options} {d n : Nat} (hd : 1 ≤ d) (hn : 2 ≤ n) (h : ValidRates o d n)
    (hlt : c1 o d n + cMu o d n < 1) : 0 < alpha o d n := by
  have hs : 0 ≤ sumNeg n (· ^ 2) (rawWeight n) := list_sum_nonneg fun i _ => sq_nonneg _
  have hm := muEff_pos hn
  have hd' : (0 : ℝ) < d := by exact_mod_cast hd
  unfold alpha
  refine lt_min ?_ (lt_min ?_ ?_)
  · have := div_nonneg h.c1_nonneg h.cMu_pos.le; linarith
  · have : 0 ≤ 2 * (sumNeg n id (rawWeight n) ^ 2 / sumNeg n (· ^ 2) (rawWeight n)) / (muEff n + 2) := by positivity
    linarith
  · exact div_pos (by linarith) (mul_pos hd' h.cMu_pos)

theorem weight_nonpos {o : Options} {d n i : Nat} (hn : 2 ≤ n) (ho : o.active = false ∨ ValidRates o d n) (h : mu n ≤ i) :
    weight o d n i ≤ 0 := by
  have : ¬ i < mu n := by omega
  simp only [weight, this, if_false]
  split
  · rename_i ha
    rcases ho with ho | ho
    · simp [ho] at ha
    · exact div_nonpos_of_nonpos_of_nonneg (mul_nonpos_of_nonneg_of_nonpos (alpha_nonneg hn ho) (raw_nonpos h))
        (sumNegAbs_pos hn).le
  · exact le_rfl

/-! ### Ranks -/

theorem ranks_foldl_not_mem (l : List Nat) (s : Nat) (r : Nat → Nat) (x : Nat) (h : x ∉ l) :
    (l.zipIdx s).foldl (fun r p => Function.update r p.1 p.2) r x = r x := by
  induction l generalizing s r with
  | nil => rfl
  | cons a l ih =>
    simp only [List.mem_cons, not_or] at h
    simp only [List.zipIdx_cons, List.foldl_cons]
    rw [ih _ _ h.2, Function.update_of_ne h.1]

theorem ranks_foldl (l : List Nat) (hl : l.Nodup) (s : Nat) (r : Nat → Nat) (k : Nat) (h : k < l.length) :
    (l.zipIdx s).foldl (fun r p => Function.update r p.1 p.2) r l[k] = s + k := by
  induction l generalizing s r k with
  | nil => simp at h
  | cons a l ih =>
    rw [List.nodup_cons] at hl
    simp only [List.zipIdx_cons, List.foldl_cons]
    cases k with
    | zero =>
      simp only [List.getElem_cons_zero]
      rw [ranks_foldl_not_mem _ _ _ _ hl.1]; simp
    | succ k =>
      simp only [List.getElem_cons_succ]
      rw [ih hl.2 _ _ _ (by simpa using h)]; omega

/-- The solution at position `k` of the sorted population has rank `k`. -/
theorem ranks_ofFn (idx : Fin n → Fin n) (hinj : Function.Injective idx) (k : Fin n) :
    ranks (List.ofFn fun k => (idx k : Nat)) (idx k) = k := by
  have hnd : (List.ofFn fun k => (idx k : Nat)).Nodup := by
    rw [List.nodup_ofFn]; exact fun a b h => hinj (Fin.ext h)
  have := ranks_foldl _ hnd 0 (fun _ => 0) k (by simp)
  simpa [ranks] using this

theorem exists_idx (l : List Nat) (h : l.Perm (List.range n)) :
    ∃ idx : Fin n → Fin n, Function.Bijective idx ∧ l = List.ofFn fun k => (idx k : Nat) := by
  have hlen : l.length = n := by simpa using h.length_eq
  have hlt : ∀ k : Fin n, l[(k : Nat)]'(by omega) < n := fun k =>
    List.mem_range.mp (h.mem_iff.mp (List.getElem_mem _))
  refine ⟨fun k => ⟨l[(k : Nat)]'(by omega), hlt k⟩, ?_, ?_⟩
  · rw [Finite.injective_iff_bijective.symm]
    intro a b hab
    have hnd : l.Nodup := h.nodup_iff.mpr List.nodup_range
    have : l[(a : Nat)]'(by omega) = l[(b : Nat)]'(by omega) := by simpa using hab
    exact Fin.ext ((hnd.getElem_inj_iff).mp this)
  · apply List.ext_getElem
    · simp [hlen]
    · intro i h1 h2; simp

/-! ### The recombined solutions -/

/-- The positions of the `mu` best solutions. -/
def bestList (idx : Fin n → Fin n) : List (Fin n) := ((List.finRange n).filter fun k : Fin n => (k : Nat) < mu n).map idx

theorem bestList_nodup {idx : Fin n → Fin n} (h : Function.Injective idx) : (bestList idx).Nodup :=
  ((List.nodup_finRange n).filter _).map h

theorem filter_lt_length (n k : Nat) (h : k ≤ n) : ((List.finRange n).filter fun i : Fin n => (i : Nat) < k).length = k := by
  have h1 : ((List.finRange n).filter fun i : Fin n => (i : Nat) < k).map (fun i : Fin n => (i : Nat)) =
      (List.range n).filter fun i => i < k := by
    have : List.range n = (List.finRange n).map (fun i : Fin n => (i : Nat)) := by simp
    rw [this, List.filter_map]; rfl
  have h2 := congrArg List.length h1
  rw [List.length_map] at h2
  rw [h2]
  clear h1 h2
  induction n with
  | zero => simp at *; omega
  | succ m ih =>
    rw [List.range_succ, List.filter_append, List.length_append]
    by_cases hk : k ≤ m
    · rw [ih hk]; simp [show ¬ m < k by omega]
    · have : k = m + 1 := by omega
      subst this
      have : (List.range m).filter (fun i => decide (i < m + 1)) = List.range m := by
        rw [List.filter_eq_self]; intro a ha; simp at ha ⊢; omega
      rw [this]; simp

theorem bestList_length (idx : Fin n → Fin n) : (bestList idx).length = mu n := by
  unfold bestList
  rw [List.length_map]
  exact filter_lt_length n (mu n) (by unfold mu; omega)

theorem mem_bestList {idx : Fin n → Fin n} (h : Function.Injective idx) (k : Fin n) :
    idx k ∈ bestList idx ↔ (k : Nat) < mu n := by
  unfold bestList
  simp only [List.mem_map, List.mem_filter, List.mem_finRange, true_and, decide_eq_true_eq]
  constructor
  · rintro ⟨a, ha, hab⟩; rw [← h hab]; exact ha
  · intro hk; exact ⟨k, hk, rfl⟩

theorem top_perm {topk : Topk n} (ht : TopkSpec topk) {idx : Fin n → Fin n} (hb : Function.Bijective idx) {w : Fin n → ℝ}
    (hpos : ∀ k : Fin n, (k : Nat) < mu n → 0 < w (idx k)) (hneg : ∀ k : Fin n, mu n ≤ k → w (idx k) ≤ 0) :
    (topk w (mu n)).Perm (bestList idx) := by
  obtain ⟨hlen, hnd, hmax⟩ := ht w (mu n) (by unfold mu; omega)
  have hsub : topk w (mu n) ⊆ bestList idx := by
    intro i hi
    by_contra hni
    obtain ⟨k, rfl⟩ := hb.2 i
    rw [mem_bestList hb.1, not_lt] at hni
    have : ∃ b ∈ bestList idx, b ∉ topk w (mu n) := by
      by_contra hall
      push Not at hall
      have hsp : (bestList idx).Subperm ((topk w (mu n)).erase (idx k)) := by
        apply List.subperm_of_subset (bestList_nodup hb.1)
        intro b hbm
        rw [List.Nodup.mem_erase_iff hnd]
        refine ⟨?_, hall b hbm⟩
        rintro rfl
        rw [mem_bestList hb.1] at hbm; omega
      have := hsp.length_le
      rw [List.length_erase_of_mem hi, hlen, bestList_length] at this
      have : 0 < (topk w (mu n)).length := List.length_pos_of_mem hi
      omega
    obtain ⟨b, hbm, hbn⟩ := this
    obtain ⟨kb, rfl⟩ := hb.2 b
    rw [mem_bestList hb.1] at hbm
    have := hmax _ hi _ hbn
    have := hpos kb hbm
    have := hneg k hni
    linarith
  exact (List.subperm_of_subset hnd hsub).perm_of_length_le (by rw [hlen, bestList_length])

theorem recombine_best {topk : Topk n} (ht : TopkSpec topk) {idx : Fin n → Fin n} (hb : Function.Bijective idx) {w : Fin n → ℝ}
    (hpos : ∀ k : Fin n, (k : Nat) < mu n → 0 < w (idx k)) (hneg : ∀ k : Fin n, mu n ≤ k → w (idx k) ≤ 0)
    (vs : Fin n → Fin d → ℝ) (j : Fin d) :
    recombine (topk w (mu n)) w vs j =
      ∑ k : Fin n, if (k : Nat) < mu n then w (idx k) * vs (idx k) j else 0 := by
  unfold recombine
  rw [((top_perm ht hb hpos hneg).map _).sum_eq, bestList, List.map_map, ← Finset.sum_filter]
  rw [← List.sum_toFinset _ ((List.nodup_finRange n).filter _)]
  apply Finset.sum_congr _ fun _ _ => rfl
  ext k; simp

/-! ### Quadratic forms -/

/-- The inner product. -/
def dot (v p : Fin d → ℝ) : ℝ := ∑ a, v a * p a

theorem quad_outer (v p : Fin d → ℝ) : (∑ a, ∑ b, v a * (p a * p b) * v b) = dot v p ^ 2 := by
  unfold dot
  rw [sq, Finset.sum_mul_sum]
  refine Finset.sum_congr rfl fun a _ => Finset.sum_congr rfl fun b _ => ?_
  ring

theorem quad_updateC (o : Options) (C : Matrix (Fin d) (Fin d) ℝ) (pC : Fin d → ℝ) (zs ys : Fin n → Fin d → ℝ)
    (w : Fin n → ℝ) (h : ℝ) (v : Fin d → ℝ) :
    quad (updateCFull o C pC zs ys w h) v =
      (1 - c1a o d n h - cMu o d n * sumWeights o d n) * quad C v
        + c1a o d n h * weightedPc o d n h ^ 2 * dot v pC ^ 2
        + cMu o d n * ∑ i, reweight o zs w i * dot v (ys i) ^ 2 := by
  have hs : (∑ i, reweight o zs w i * dot v (ys i) ^ 2) =
      ∑ a, ∑ b, v a * (∑ i, reweight o zs w i * (ys i a * ys i b)) * v b := by
    simp only [← quad_outer, Finset.mul_sum, Finset.sum_mul]
    rw [Finset.sum_comm]
    refine Finset.sum_congr rfl fun a _ => ?_
    rw [Finset.sum_comm]
    refine Finset.sum_congr rfl fun b _ => Finset.sum_congr rfl fun i _ => ?_
    ring
  rw [hs, ← quad_outer]
  unfold quad updateCFull
  simp only [Finset.mul_sum, ← Finset.sum_add_distrib]
  refine Finset.sum_congr rfl fun a _ => Finset.sum_congr rfl fun b _ => ?_
  simp only [← Finset.mul_sum]
  ring

/-- `v · A z` squared is at most `vᵀ A Aᵀ v` times the squared length of `z`. -/
theorem dot_mulVec_sq_le (A C : Matrix (Fin d) (Fin d) ℝ) (hA : ∀ a b, C a b = ∑ k, A a k * A b k) (v z : Fin d → ℝ) :
    dot v (A.mulVec z) ^ 2 ≤ quad C v * normSq z := by
  have h1 : dot v (A.mulVec z) = ∑ k, (∑ a, v a * A a k) * z k := by
    simp only [dot, Matrix.mulVec, dotProduct, Finset.mul_sum, Finset.sum_mul]
    rw [Finset.sum_comm]
    refine Finset.sum_congr rfl fun k _ => Finset.sum_congr rfl fun a _ => ?_
    ring
  have h2 : quad C v = ∑ k, (∑ a, v a * A a k) ^ 2 := by
    simp only [quad, hA, sq, Finset.sum_mul_sum, Finset.mul_sum, Finset.sum_mul]
    conv_rhs => rw [Finset.sum_comm]
    refine Finset.sum_congr rfl fun a _ => ?_
    conv_rhs => rw [Finset.sum_comm]
    refine Finset.sum_congr rfl fun b _ => Finset.sum_congr rfl fun k _ => ?_
    ring
  rw [h1, h2]
  exact Finset.sum_mul_sq_le_sq_mul_sq _ _ _

theorem normSq_pos {z : Fin d → ℝ} (h : z ≠ 0) : 0 < normSq z := by
  obtain ⟨j, hj⟩ := Function.ne_iff.mp h
  exact Finset.sum_pos' (fun i _ => sq_nonneg _) ⟨j, Finset.mem_univ _, by have : z j ≠ 0 := hj; positivity⟩

theorem hSig_cases (p : Fin d → ℝ) (c : ℝ) (i : Nat) : hSig p c i = 1 ∨ hSig p c i = 0 := by
  simp only [hSig]; split <;> simp

theorem c1a_bounds {o : Options} {d n : Nat} (h1 : 0 ≤ c1 o d n) (hc : 0 ≤ cC o d n ∧ cC o d n ≤ 2) {h : ℝ} (hh : h = 1 ∨ h = 0) :
    0 ≤ c1a o d n h ∧ c1a o d n h ≤ c1 o d n := by
  unfold c1a
  rcases hh with rfl | rfl
  · constructor <;> norm_num
    exact h1
  · have h2 : 0 ≤ cC o d n * (2 - cC o d n) := mul_nonneg hc.1 (by linarith [hc.2])
    have h3 : cC o d n * (2 - cC o d n) ≤ 1 := by nlinarith [sq_nonneg (cC o d n - 1)]
    have h4 : (1 - (1 - (0 : ℝ) ^ 2) * cC o d n * (2 - cC o d n)) = 1 - cC o d n * (2 - cC o d n) := by ring
    rw [h4]
    constructor
    · exact mul_nonneg h1 (by linarith)
    · nlinarith

/-- The sum of the absolute weights of the worse half. -/
noncomputable def negMass (o : Options) (d n : Nat) : ℝ := if o.active then alpha o d n else 0

theorem sumWeights_eq {o : Options} {d n : Nat} (hn : 2 ≤ n) : sumWeights o d n = 1 - negMass o d n := by
  have hr : List.range n = List.range (mu n) ++ (List.range (n - mu n)).map (mu n + ·) := by
    rw [← List.range_add]; congr 1; unfold mu; omega
  have h0 := sumNegAbs_pos hn
  unfold sumWeights
  rw [hr, List.map_append, List.sum_append, weight_sum_pos hn, List.map_map]
  unfold negMass
  by_cases ha : o.active = true
  · have h1 : (List.range (n - mu n)).map (weight o d n ∘ (mu n + ·)) =
        (List.range (n - mu n)).map fun i => (fun i => -(alpha o d n * |rawWeight n (mu n + i)|)) i / sumNeg n abs (rawWeight n) := by
      apply List.map_congr_left
      intro i _
      have : ¬ mu n + i < mu n := by omega
      simp only [Function.comp, weight, this, if_false, ha, if_true]
      rw [abs_of_nonpos (raw_nonpos (by omega))]; ring
    have h2 : ((List.range (n - mu n)).map fun i => -(alpha o d n * |rawWeight n (mu n + i)|)).sum =
        -(alpha o d n * sumNeg n abs (rawWeight n)) := by
      unfold sumNeg
      induction List.range (n - mu n) with
      | nil => simp
      | cons a l ih => simp only [List.map_cons, List.sum_cons, ih]; ring
    rw [h1, list_sum_div, h2]
    simp only [ha, if_true]
    field_simp
    ring
  · have h1 : (List.range (n - mu n)).map (weight o d n ∘ (mu n + ·)) = (List.range (n - mu n)).map fun _ => (0 : ℝ) := by
      apply List.map_congr_left
      intro i _
      have : ¬ mu n + i < mu n := by omega
      simp [Function.comp, weight, this, ha]
    rw [h1]; simp [ha]

theorem assignedWeights_idx (o : Options) (d : Nat) {idx : Fin n → Fin n} (h : Function.Injective idx) (k : Fin n) :
    assignedWeights o d n (List.ofFn fun k => (idx k : Nat)) (idx k) = weight o d n k := by
  unfold assignedWeights; rw [ranks_ofFn idx h]

theorem sum_range_fin (n : Nat) (f : Nat → ℝ) : ((List.range n).map f).sum = ∑ k : Fin n, f k := by
  rw [Fin.sum_univ_def]
  have : (List.finRange n).map (fun k : Fin n => f k) = ((List.finRange n).map (fun k : Fin n => (k : Nat))).map f := by
    rw [List.map_map]; rfl
  rw [this]; simp

theorem sum_mu (n : Nat) (f : Nat → ℝ) :
    (∑ k : Fin n, if (k : Nat) < mu n then f k else 0) = ((List.range (mu n)).map f).sum := by
  rw [← sum_range_fin n (fun k => if k < mu n then f k else 0)]
  have hr : List.range n = List.range (mu n) ++ (List.range (n - mu n)).map (mu n + ·) := by
    rw [← List.range_add]; congr 1; unfold mu; omega
  rw [hr, List.map_append, List.sum_append]
  have h1 : (List.range (mu n)).map (fun k => if k < mu n then f k else 0) = (List.range (mu n)).map f := by
    apply List.map_congr_left; intro k hk; simp [List.mem_range.mp hk]
  have h2 : (((List.range (n - mu n)).map (mu n + ·)).map (fun k => if k < mu n then f k else 0)).sum = 0 := by
    rw [List.map_map]
    apply List.sum_eq_zero
    intro x hx
    simp at hx
    exact hx.2.symm
  rw [h1, h2, add_zero]

theorem sum_neg_weights {o : Options} {d n : Nat} (hn : 2 ≤ n) :
    (∑ k : Fin n, if (k : Nat) < mu n then 0 else weight o d n k) = - negMass o d n := by
  have h1 := sum_mu n (weight o d n)
  rw [weight_sum_pos hn] at h1
  have h2 := sumWeights_eq (o := o) (d := d) hn
  unfold sumWeights at h2
  rw [sum_range_fin] at h2
  have h3 : (∑ k : Fin n, weight o d n k) = (∑ k : Fin n, if (k : Nat) < mu n then weight o d n k else 0) +
      ∑ k : Fin n, if (k : Nat) < mu n then 0 else weight o d n k := by
    rw [← Finset.sum_add_distrib]
    refine Finset.sum_congr rfl fun k _ => ?_
    split <;> simp
  linarith

theorem negMass_bound {o : Options} {d n : Nat} (hd : 1 ≤ d) (hn : 2 ≤ n) (h : ValidRates o d n)
    (hlt : c1 o d n + cMu o d n < 1) :
    0 ≤ negMass o d n ∧ d * cMu o d n * negMass o d n ≤ 1 - cMu o d n - c1 o d n ∧
      (negMass o d n = 0 ∨ 0 < negMass o d n) := by
  have hd' : (0 : ℝ) < d := by exact_mod_cast hd
  unfold negMass
  split
  · have h1 := alpha_pos hd hn h hlt
    refine ⟨h1.le, ?_, .inr h1⟩
    have h2 := alpha_le_posDef o d n
    rw [le_div_iff₀ (mul_pos hd' h.cMu_pos)] at h2
    linarith
  · exact ⟨le_rfl, by simp; linarith, .inl rfl⟩

/-- The weighted sum of squared projections is bounded from below by the old covariance. -/
theorem rankMu_bound {o : Options} (hn : 2 ≤ n) (ho : o.active = false ∨ ValidRates o d n)
    {idx : Fin n → Fin n} (hb : Function.Bijective idx) (zs : Fin n → Fin d → ℝ) (hz : ∀ i, zs i ≠ 0) (q : ℝ) (g : Fin n → ℝ)
    (hg : ∀ i, 0 ≤ g i) (hgq : ∀ i, g i ≤ q * normSq (zs i)) (hq : 0 ≤ q) :
    - (d * negMass o d n * q) ≤
      ∑ i, reweight o zs (assignedWeights o d n (List.ofFn fun k => (idx k : Nat))) i * g i := by
  rw [← (Equiv.ofBijective idx hb).sum_comp]
  simp only [Equiv.ofBijective_apply]
  have h1 := sum_neg_weights (o := o) (d := d) hn
  have h2 : - (d * negMass o d n * q) = ∑ k : Fin n, if (k : Nat) < mu n then 0 else d * weight o d n k * q := by
    have : - (d * negMass o d n * q) = d * q * (- negMass o d n) := by ring
    rw [this, ← h1, Finset.mul_sum]
    refine Finset.sum_congr rfl fun k _ => ?_
    split <;> ring
  rw [h2]
  apply Finset.sum_le_sum
  intro k _
  have hw := assignedWeights_idx o d hb.1 k
  unfold reweight
  rw [hw]
  by_cases hk : (k : Nat) < mu n
  · have hp := weight_pos (o := o) (d := d) hk
    simp only [hk, if_true, hp]
    split <;> exact mul_nonneg hp.le (hg _)
  · have hp := weight_nonpos (o := o) (d := d) hn ho (not_lt.mp hk)
    simp only [hk, if_false, not_lt.mpr hp]
    split
    · have hN := normSq_pos (hz (idx k))
      have h3 : d * weight o d n k / normSq (zs (idx k)) * g (idx k) =
          d * weight o d n k * (g (idx k) / normSq (zs (idx k))) := by ring
      rw [h3]
      have h4 : g (idx k) / normSq (zs (idx k)) ≤ q := by rw [div_le_iff₀ hN]; exact hgq _
      exact mul_le_mul_of_nonpos_left h4 (mul_nonpos_of_nonneg_of_nonpos (Nat.cast_nonneg _) hp)
    · rename_i ha
      have : weight o d n k = 0 := by simp [weight, hk, ha]
      rw [this]; simp

end EvoTorch.CMAES
