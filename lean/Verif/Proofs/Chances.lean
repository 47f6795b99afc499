import Verif.Spec.Chances
import Mathlib.Data.Int.CardIntervalMod
import Mathlib.Data.Fintype.BigOperators
import Mathlib.Algebra.BigOperators.Field
import Mathlib.Algebra.Order.Ring.Rat
import Mathlib.Data.Rat.Floor
import Mathlib.Data.Fintype.Perm
import Mathlib.Logic.Equiv.Fintype
import Mathlib.Data.List.NodupEquivFin
import Mathlib.Data.Multiset.Fintype
import Mathlib.Data.List.Permutation
import Mathlib.Data.List.Sort
import Mathlib.Tactic.Linarith
import Mathlib.Tactic.Ring
import Mathlib.Tactic.FieldSimp
import Mathlib.Tactic.Positivity
/-! Counting lemmas behind the chances. -/
namespace EvoTorch.Chances
open EvoTorch.Spec.Chances Finset

theorem chance_eq {α : Type} (s : Finset α) (P : α → Prop) [DecidablePred P] : chance s P = ((s.filter P).card : ℚ) / (s.card : ℚ) := by
  unfold chance
  congr

theorem chance_congr {α : Type} {s : Finset α} {P Q : α → Prop} (h : ∀ x ∈ s, P x ↔ Q x) : chance s P = chance s Q := by
  classical
  unfold chance
  rw [Finset.filter_congr (fun x hx => h x hx)]

theorem chance_not {α : Type} {s : Finset α} (hs : s.Nonempty) (P : α → Prop) : chance s (fun x => ¬ P x) = 1 - chance s P := by
  classical
  rw [chance_eq, chance_eq]
  have h := Finset.card_filter_add_card_filter_not (s := s) P
  have hc : (s.card : ℚ) ≠ 0 := by exact_mod_cast hs.card_pos.ne'
  rw [eq_sub_iff_add_eq, ← add_div, div_eq_one_iff_eq hc]
  exact_mod_cast (by omega : (s.filter fun x => ¬ P x).card + (s.filter P).card = s.card)

/-- Independent draws: the chance that every draw satisfies its condition is the product of the chances. -/
theorem chance_all {α ι : Type} [Fintype ι] [DecidableEq ι] (s : Finset α) (P : ι → α → Prop) :
    chance (draws s) (fun w : ι → α => ∀ i, P i (w i)) = ∏ i, chance s (P i) := by
  classical
  simp only [chance_eq]
  unfold draws
  have h : (Fintype.piFinset fun _ : ι => s).filter (fun w => ∀ i, P i (w i)) = Fintype.piFinset fun i => s.filter (P i) := by
    ext w
    simp only [mem_filter, Fintype.mem_piFinset]
    exact ⟨fun h i => ⟨h.1 i, h.2 i⟩, fun h => ⟨fun i => (h i).1, fun i => (h i).2⟩⟩
  rw [Finset.prod_div_distrib]
  have e : ((Fintype.piFinset fun _ : ι => s).filter (fun w => ∀ i, P i (w i))).card = ∏ i, (s.filter (P i)).card := by
    rw [h, Fintype.card_piFinset]
  have e' : (Fintype.piFinset fun _ : ι => s).card = ∏ _i : ι, s.card := Fintype.card_piFinset _
  rw [e']
  push_cast
  congr 1
  rw [← Nat.cast_prod, ← e]

/-- Every single draw is as likely as on its own. -/
theorem chance_one {α ι : Type} [Fintype ι] [DecidableEq ι] {s : Finset α} (hs : s.Nonempty) (i : ι) (P : α → Prop) :
    chance (draws s) (fun w : ι → α => P (w i)) = chance s P := by
  have h := chance_all s fun (j : ι) (x : α) => j = i → P x
  have h1 : chance (draws s) (fun w : ι → α => P (w i)) = chance (draws s) (fun w : ι → α => ∀ j, j = i → P (w j)) :=
    chance_congr fun w _ => ⟨fun hp j hj => hj ▸ hp, fun hp => hp i rfl⟩
  rw [h1, h, Finset.prod_eq_single i]
  · exact chance_congr fun x _ => by simp
  · intro j _ hj
    have : chance s (fun x => j = i → P x) = chance s fun _ => True := chance_congr fun x _ => by simp [hj]
    rw [this]
    rw [chance_eq]
    have hc : (s.card : ℚ) ≠ 0 := by exact_mod_cast hs.card_pos.ne'
    rw [Finset.filter_true_of_mem (fun _ _ => trivial)]
    exact div_self hc
  · intro h; exact absurd (Finset.mem_univ i) h

/-- The numbers of an interval which leave a given remainder: their number differs from the exact share by less than one. -/
theorem count_residue (a b : ℤ) (hab : a ≤ b) (d v : ℤ) (hd : 0 < d) :
    |((((Finset.Ico a b).filter fun x => x ≡ v [ZMOD d]).card : ℕ) : ℚ) - ((b : ℚ) - a) / d| < 1 := by
  have hdq : (0 : ℚ) < d := by exact_mod_cast hd
  have h := Int.Ico_filter_modEq_card a b hd v
  have hle : ⌈((a : ℚ) - v) / d⌉ ≤ ⌈((b : ℚ) - v) / d⌉ := Int.ceil_le_ceil (by
    apply div_le_div_of_nonneg_right _ hdq.le
    have : (a : ℚ) ≤ b := by exact_mod_cast hab
    linarith)
  rw [max_eq_left (by omega)] at h
  have hq : ((((Finset.Ico a b).filter fun x => x ≡ v [ZMOD d]).card : ℕ) : ℚ) = ⌈((b : ℚ) - v) / d⌉ - ⌈((a : ℚ) - v) / d⌉ := by
    exact_mod_cast h
  rw [hq]
  have e : ((b : ℚ) - a) / d = ((b : ℚ) - v) / d - ((a : ℚ) - v) / d := by ring
  rw [e, abs_lt]
  have h1 := Int.le_ceil (((b : ℚ) - v) / d)
  have h2 := Int.ceil_lt_add_one (((b : ℚ) - v) / d)
  have h3 := Int.le_ceil (((a : ℚ) - v) / d)
  have h4 := Int.ceil_lt_add_one (((a : ℚ) - v) / d)
  constructor <;> linarith

/-! ### Random orders -/

section orders
variable {α K : Type} [Fintype α] [DecidableEq α] [LinearOrder K]

/-- For two lists without repetitions of the same length there is a permutation taking one to the other. -/
theorem exists_map_eq {o o' : List α} (h : o.Nodup) (h' : o'.Nodup) (hl : o.length = o'.length) : ∃ ρ : Equiv.Perm α, o.map ρ = o' := by
  let e : {x // x ∈ o} ≃ {x // x ∈ o'} := (List.Nodup.getEquiv o h).symm.trans ((finCongr hl).trans (List.Nodup.getEquiv o' h'))
  refine ⟨Equiv.extendSubtype e, List.ext_getElem (by simp [hl]) fun i h1 h2 => ?_⟩
  rw [List.getElem_map, Equiv.extendSubtype_apply_of_mem e _ (List.getElem_mem _)]
  have hi : i < o.length := by simpa using h1
  have : (List.Nodup.getEquiv o h).symm ⟨o[i], List.getElem_mem _⟩ = ⟨i, hi⟩ := by
    rw [Equiv.symm_apply_eq]; rfl
  simp only [e, Equiv.trans_apply, this]
  rfl

/-- The order of some positions by their keys, where the keys are a random arrangement of distinct numbers: every order of these positions arises from
the same number of arrangements. -/
theorem count_order (key : α → K) (hk : Function.Injective key) (o : List α) (ho : o.Nodup) :
    (Finset.univ.filter fun π : Equiv.Perm α => o.Pairwise fun a b => key (π a) < key (π b)).card * o.length.factorial = (Fintype.card α).factorial := by
  have hsame : ∀ o' ∈ o.permutations,
      (Finset.univ.filter fun π : Equiv.Perm α => o'.Pairwise fun a b => key (π a) < key (π b)).card =
      (Finset.univ.filter fun π : Equiv.Perm α => o.Pairwise fun a b => key (π a) < key (π b)).card := by
    intro o' ho'
    have hp := List.mem_permutations.mp ho'
    obtain ⟨ρ, rfl⟩ := exists_map_eq ho (hp.nodup_iff.mpr ho) hp.length_eq.symm
    refine Finset.card_bij' (fun π _ => π * ρ) (fun π _ => π * ρ⁻¹) ?_ ?_ ?_ ?_
    · intro π hπ
      simp only [mem_filter, mem_univ, true_and, List.pairwise_map] at hπ ⊢
      exact hπ
    · intro π hπ
      simp only [mem_filter, mem_univ, true_and, List.pairwise_map] at hπ ⊢
      simpa using hπ
    · intro π _; simp
    · intro π _; simp
  have hnd : o.permutations.Nodup := List.nodup_permutations o ho
  have hdisj : Fintype.card (Equiv.Perm α) = ∑ o' ∈ o.permutations.toFinset, (Finset.univ.filter fun π : Equiv.Perm α => o'.Pairwise fun a b => key (π a) < key (π b)).card := by
    rw [← Finset.card_univ]
    rw [← Finset.card_biUnion]
    · congr 1
      symm
      rw [Finset.eq_univ_iff_forall]
      intro π
      simp only [mem_biUnion, List.mem_toFinset, List.mem_permutations, mem_filter, mem_univ, true_and]
      refine ⟨o.insertionSort fun a b => key (π a) ≤ key (π b), List.perm_insertionSort _ _, ?_⟩
      have hs : (o.insertionSort fun a b => key (π a) ≤ key (π b)).Pairwise fun a b => key (π a) ≤ key (π b) := by
        haveI : Std.Total fun a b : α => key (π a) ≤ key (π b) := ⟨fun a b => le_total _ _⟩
        haveI : IsTrans α fun a b => key (π a) ≤ key (π b) := ⟨fun a b c h1 h2 => le_trans h1 h2⟩
        exact List.pairwise_insertionSort _ o
      have hn : (o.insertionSort fun a b => key (π a) ≤ key (π b)).Nodup := (List.perm_insertionSort _ _).nodup_iff.mpr ho
      exact (hs.and hn).imp fun {a b} h => lt_of_le_of_ne h.1 fun e => h.2 (π.injective (hk e))
    · intro o1 h1 o2 h2 hne
      rw [Function.onFun, Finset.disjoint_left]
      intro π hπ1 hπ2
      simp only [mem_filter, mem_univ, true_and] at hπ1 hπ2
      have h1 := List.mem_permutations.mp (List.mem_toFinset.mp h1)
      have h2 := List.mem_permutations.mp (List.mem_toFinset.mp h2)
      exact hne (List.Perm.eq_of_pairwise (le := fun a b => key (π a) < key (π b))
        (fun a b _ _ hab hba => absurd (lt_trans hab hba) (lt_irrefl _)) hπ1 hπ2 (h1.trans h2.symm))
  rw [Finset.sum_congr rfl (fun o' ho' => hsame o' (List.mem_toFinset.mp ho')), Finset.sum_const, List.toFinset_card_of_nodup hnd,
    List.length_permutations, Fintype.card_perm] at hdisj
  rw [hdisj, Nat.mul_comm]; rfl

/-- As a chance. -/
theorem chance_order (key : α → K) (hk : Function.Injective key) (o : List α) (ho : o.Nodup) :
    chance (Finset.univ : Finset (Equiv.Perm α)) (fun π => o.Pairwise fun a b => key (π a) < key (π b)) = 1 / (o.length.factorial : ℚ) := by
  have h := count_order key hk o ho
  rw [chance_eq, Finset.card_univ, Fintype.card_perm, ← h]
  have hf : (o.length.factorial : ℚ) ≠ 0 := by exact_mod_cast o.length.factorial_pos.ne'
  have hN : (Finset.univ.filter fun π : Equiv.Perm α => o.Pairwise fun a b => key (π a) < key (π b)).card ≠ 0 := by
    intro h0
    rw [h0, Nat.zero_mul] at h
    exact (Fintype.card α).factorial_pos.ne h
  have hN' : ((Finset.univ.filter fun π : Equiv.Perm α => o.Pairwise fun a b => key (π a) < key (π b)).card : ℚ) ≠ 0 := by exact_mod_cast hN
  push_cast
  rw [div_eq_div_iff (by positivity) hf, one_mul]

end orders

end EvoTorch.Chances
