import Verif.Props.Operators
import Mathlib.Data.Fintype.BigOperators
import Mathlib.Data.Fintype.Pi
import Mathlib.Data.Fintype.Prod
import Mathlib.Algebra.Order.Field.Basic
import Mathlib.Algebra.BigOperators.Field
import Mathlib.Tactic.Positivity
import Mathlib.Tactic.FieldSimp
/-!
C152: the chances of the solutions in a tournament. The draws of `make_randint` are independent and uniform: each of the `n ^ t` rows of `t` contestants out of `n` solutions is equally likely, as is each matrix of
`m` such rows. Probabilities are relative numbers of draws.
-/
namespace EvoTorch.SelectionPressure
open Operators
open Finset (univ filter)
variable {K : Type} [Field K] [LinearOrder K] [IsStrictOrderedRing K]

/-! ### Specification -/

/-- The chance that solution `i` wins a tournament of `t` contestants drawn out of `n`. -/
noncomputable def chance (argmax : List K → Nat) (ranks : List K) (n t : Nat) (i : Fin n) : ℚ :=
  ((univ.filter fun draw : Fin t → Fin n => winner argmax ranks (List.ofFn fun k => (draw k).val) = i.val).card : ℚ) / (n : ℚ) ^ t

/-- The chance that the parents chosen by `2 * m` tournaments (first parents and second parents of `m` cross-overs) are the solutions `a k` and `b k`. -/
noncomputable def parentsChance (argmax : List K → Nat) (ranks : List K) (n t m : Nat) (a b : Fin m → Fin n) : ℚ :=
  ((univ.filter fun draw : Fin (m + m) → Fin t → Fin n => tournamentParents argmax ranks (List.ofFn fun r => List.ofFn fun k => (draw r k).val) =
      (List.ofFn fun k => (a k).val, List.ofFn fun k => (b k).val)).card : ℚ) / (n : ℚ) ^ (t * (m + m))

/-! ### Proofs -/

/-- Who wins, if the ranks differ: someone drawn than whom nobody drawn ranks higher. -/
theorem winner_iff {n t : Nat} {argmax : List K → Nat} (ha : ArgmaxSpec argmax) (ranks : List K) (hinj : Function.Injective fun i : Fin n => ranks.getD i.val 0) (ht : 1 ≤ t) (draw : Fin t → Fin n) (i : Fin n) :
    winner argmax ranks (List.ofFn fun k => (draw k).val) = i.val ↔ (∃ k, draw k = i) ∧ ∀ k, ranks.getD (draw k).val 0 ≤ ranks.getD i.val 0 := by
  have hne : (List.ofFn fun k => (draw k).val) ≠ [] := by
    intro h
    have := congrArg List.length h
    simp at this
    omega
  obtain ⟨hmem, hmax⟩ := winner_spec ha ranks _ hne
  have hmax' : ∀ k, ranks.getD (draw k).val 0 ≤ ranks.getD (winner argmax ranks (List.ofFn fun k => (draw k).val)) 0 := fun k => hmax _ (by rw [List.mem_ofFn]; exact ⟨k, rfl⟩)
  obtain ⟨k0, hk0⟩ := (List.mem_ofFn' _ _).1 hmem
  constructor
  · intro h
    rw [h] at hk0 hmax'
    exact ⟨⟨k0, Fin.ext hk0⟩, hmax'⟩
  · rintro ⟨⟨k, rfl⟩, hall⟩
    have h1 := hmax' k
    rw [← hk0] at h1 ⊢
    have h2 := hall k0
    exact congrArg Fin.val (hinj (le_antisymm h2 h1))

/-- The number of draws with which `i` wins. -/
theorem count_wins {n t : Nat} {argmax : List K → Nat} (ha : ArgmaxSpec argmax) (ranks : List K) (hinj : Function.Injective fun i : Fin n => ranks.getD i.val 0) (ht : 1 ≤ t) (i : Fin n) (r : Nat)
    (hr : (univ.filter fun j : Fin n => ranks.getD j.val 0 < ranks.getD i.val 0).card = r) :
    (univ.filter fun draw : Fin t → Fin n => winner argmax ranks (List.ofFn fun k => (draw k).val) = i.val).card = (r + 1) ^ t - r ^ t := by
  classical
  set S := univ.filter fun j : Fin n => ranks.getD j.val 0 < ranks.getD i.val 0 with hS
  have hi : i ∉ S := by simp [hS]
  have hset : (univ.filter fun draw : Fin t → Fin n => winner argmax ranks (List.ofFn fun k => (draw k).val) = i.val) =
      (Fintype.piFinset fun _ : Fin t => insert i S) \ (Fintype.piFinset fun _ : Fin t => S) := by
    ext draw
    rw [Finset.mem_filter, winner_iff ha ranks hinj ht]
    simp only [Finset.mem_univ, true_and, Finset.mem_sdiff, Fintype.mem_piFinset, Finset.mem_insert]
    constructor
    · rintro ⟨⟨k, hk⟩, hall⟩
      refine ⟨fun k' => ?_, fun hc => hi (hk ▸ hc k)⟩
      rcases eq_or_lt_of_le (hall k') with h | h
      · exact Or.inl (hinj h)
      · exact Or.inr (by simp only [hS, Finset.mem_filter, Finset.mem_univ, true_and]; exact h)
    · rintro ⟨h1, h2⟩
      constructor
      · by_contra hc
        push Not at hc
        exact h2 fun k => (h1 k).resolve_left (hc k)
      · intro k
        rcases h1 k with h | h
        · rw [h]
        · simp only [hS, Finset.mem_filter, Finset.mem_univ, true_and] at h
          exact le_of_lt h
  rw [hset, Finset.card_sdiff_of_subset (Fintype.piFinset_subset _ _ fun _ => Finset.subset_insert _ _), Fintype.card_piFinset, Fintype.card_piFinset]
  simp [Finset.card_insert_of_notMem hi, hr]

/-- A solution of which `r` rank lower. -/
theorem chance_eq {n t : Nat} {argmax : List K → Nat} (ha : ArgmaxSpec argmax) (ranks : List K) (hinj : Function.Injective fun i : Fin n => ranks.getD i.val 0) (ht : 1 ≤ t) (i : Fin n) (r : Nat)
    (hr : (univ.filter fun j : Fin n => ranks.getD j.val 0 < ranks.getD i.val 0).card = r) : chance argmax ranks n t i = (((r : ℚ) + 1) ^ t - (r : ℚ) ^ t) / (n : ℚ) ^ t := by
  rw [chance, count_wins ha ranks hinj ht i r hr, Nat.cast_sub (Nat.pow_le_pow_left (Nat.le_succ r) t)]
  push_cast
  rfl

/-- The ranks of `centered` differ, also where the fitnesses do not. -/
theorem centered_ranks {sort : Selection.Sorter K} (hs : Selection.SorterSpec sort) (hib : Bool) (junk x : List K) (hj : junk.length = x.length) (hn : 2 ≤ x.length) :
    Function.Injective (fun i : Fin x.length => (Ranking.centered sort hib junk x).getD i.val 0) := by
  have hperm := (Ranking.C19_centered hs hib junk x hj hn).1
  have hlen : (Ranking.centered sort hib junk x).length = x.length := by rw [Ranking.centered, Ranking.scatter_length, hj]
  have hnd : (Ranking.centered sort hib junk x).Nodup := by
    refine hperm.nodup_iff.2 (List.Nodup.map ?_ List.nodup_range)
    intro a b hab
    have hne : (1 / ((x.length : K) - 1)) ≠ 0 := by
      have : (1 : K) < (x.length : K) := by exact_mod_cast hn
      exact one_div_ne_zero (by linarith)
    have := mul_right_cancel₀ hne (add_left_cancel hab)
    exact_mod_cast this
  intro i j hij
  simp only [List.getD_eq_getElem?_getD, List.getElem?_eq_getElem (show i.val < (Ranking.centered sort hib junk x).length by rw [hlen]; exact i.2),
    List.getElem?_eq_getElem (show j.val < (Ranking.centered sort hib junk x).length by rw [hlen]; exact j.2), Option.getD_some] at hij
  exact Fin.ext (hnd.getElem_inj_iff.1 hij)

/-- A better fitness ranks higher. -/
theorem centered_better {sort : Selection.Sorter K} (hs : Selection.SorterSpec sort) (hib : Bool) (junk x : List K) (hj : junk.length = x.length) (hn : 2 ≤ x.length) (i j : Fin x.length)
    (h : Ranking.Better hib x[i] x[j]) : (Ranking.centered sort hib junk x).getD j.val 0 < (Ranking.centered sort hib junk x).getD i.val 0 := by
  have hlen : (Ranking.centered sort hib junk x).length = x.length := by rw [Ranking.centered, Ranking.scatter_length, hj]
  have hi : i.val < (Ranking.centered sort hib junk x).length := by rw [hlen]; exact i.2
  have hj' : j.val < (Ranking.centered sort hib junk x).length := by rw [hlen]; exact j.2
  have := (Ranking.C19_centered hs hib junk x hj hn).2.2 i.val j.val x[i] x[j] _ _ (List.getElem?_eq_getElem i.2) (List.getElem?_eq_getElem j.2) h (List.getElem?_eq_getElem hi) (List.getElem?_eq_getElem hj')
  simpa only [List.getD_eq_getElem?_getD, List.getElem?_eq_getElem hi, List.getElem?_eq_getElem hj', Option.getD_some] using this

/-- Lower ranks are fewer. -/
theorem lower_card {n : Nat} (w : Fin n → K) (hinj : Function.Injective w) : ∃ pos : Fin n → Nat, (∀ i, (univ.filter fun j => w j < w i).card = pos i) ∧ (∀ i, pos i < n) ∧ ∀ i j, w j < w i ↔ pos j < pos i := by
  classical
  have hmono : ∀ i j, w j < w i → (univ.filter fun k => w k < w j).card < (univ.filter fun k => w k < w i).card := by
    intro i j h
    refine Finset.card_lt_card ⟨fun k hk => ?_, fun hc => ?_⟩
    · simp only [Finset.mem_filter, Finset.mem_univ, true_and] at hk ⊢
      exact lt_trans hk h
    · have := hc (by simp [h] : j ∈ univ.filter fun k => w k < w i)
      simp at this
  refine ⟨fun i => (univ.filter fun j => w j < w i).card, fun _ => rfl, fun i => ?_, fun i j => ⟨hmono i j, fun h => ?_⟩⟩
  · have : (univ.filter fun j => w j < w i).card < (univ : Finset (Fin n)).card := Finset.card_lt_card ⟨Finset.filter_subset _ _, fun hc => by
      have := hc (Finset.mem_univ i)
      simp at this⟩
    simpa using this
  · rcases lt_trichotomy (w j) (w i) with h1 | h1 | h1
    · exact h1
    · rw [hinj h1] at h; exact absurd h (lt_irrefl _)
    · exact absurd (hmono j i h1) (not_lt.2 (le_of_lt h))

theorem pow_gap_mono {a b t : Nat} (hab : a < b) (ht : 1 ≤ t) : ((a : ℚ) + 1) ^ t - (a : ℚ) ^ t ≤ ((b : ℚ) + 1) ^ t - (b : ℚ) ^ t ∧ (2 ≤ t → ((a : ℚ) + 1) ^ t - (a : ℚ) ^ t < ((b : ℚ) + 1) ^ t - (b : ℚ) ^ t) := by
  have ha : (0 : ℚ) ≤ a := Nat.cast_nonneg a
  have hb : (a : ℚ) < b := by exact_mod_cast hab
  obtain ⟨s, rfl⟩ : ∃ s, t = s + 1 := ⟨t - 1, by omega⟩
  clear ht
  induction s with
  | zero => simp
  | succ s ih =>
    have key : ∀ x : ℚ, (x + 1) ^ (s + 1 + 1) - x ^ (s + 1 + 1) = x * ((x + 1) ^ (s + 1) - x ^ (s + 1)) + (x + 1) ^ (s + 1) := fun x => by ring
    rw [key, key]
    have hpos : 0 ≤ ((a : ℚ) + 1) ^ (s + 1) - (a : ℚ) ^ (s + 1) := by
      have : (a : ℚ) ^ (s + 1) ≤ ((a : ℚ) + 1) ^ (s + 1) := by gcongr; linarith
      linarith
    have h1 : (a : ℚ) * (((a : ℚ) + 1) ^ (s + 1) - (a : ℚ) ^ (s + 1)) ≤ (b : ℚ) * (((b : ℚ) + 1) ^ (s + 1) - (b : ℚ) ^ (s + 1)) := mul_le_mul (le_of_lt hb) ih.1 hpos (by linarith)
    have h2 : ((a : ℚ) + 1) ^ (s + 1) < ((b : ℚ) + 1) ^ (s + 1) := by gcongr
    exact ⟨by linarith, fun _ => by linarith⟩

/-! ### Theorems -/

/-- C152: single objective (or a chosen objective), at least two evaluated solutions, tournaments of any size. There is an order of the solutions, from 0 (worst) to `n - 1` (best), with better fitnesses later, such that the
solution at position `p` wins with the chance `((p + 1) ^ t - p ^ t) / n ^ t`. -/
theorem C152_chances {argmax : List K → Nat} (ha : ArgmaxSpec argmax) {sort : Selection.Sorter K} (hs : Selection.SorterSpec sort) (hib : Bool) (junk x : List K) (hj : junk.length = x.length) (hn : 2 ≤ x.length)
    (t : Nat) (ht : 1 ≤ t) :
    ∃ pos : Fin x.length → Fin x.length, Function.Bijective pos ∧ (∀ i j : Fin x.length, Ranking.Better hib x[i] x[j] → pos j < pos i) ∧
      ∀ i, chance argmax (Ranking.centered sort hib junk x) x.length t i = (((pos i).val + 1 : ℚ) ^ t - ((pos i).val : ℚ) ^ t) / (x.length : ℚ) ^ t := by
  have hinj := centered_ranks hs hib junk x hj hn
  obtain ⟨pos, h1, h2, h3⟩ := lower_card _ hinj
  have hpi : Function.Injective fun i => (⟨pos i, h2 i⟩ : Fin x.length) := by
    intro i j hij
    have hij : pos i = pos j := Fin.mk.inj hij
    by_contra hne
    rcases lt_or_gt_of_ne (fun h => hne (hinj h)) with h | h
    · have := (h3 j i).1 h; omega
    · have := (h3 i j).1 h; omega
  refine ⟨fun i => ⟨pos i, h2 i⟩, Finite.injective_iff_bijective.1 hpi, fun i j hb => ?_, fun i => chance_eq ha _ hinj ht i (pos i) (h1 i)⟩
  exact (h3 i j).1 (centered_better hs hib junk x hj hn i j hb)

/-- C152: someone always wins. -/
theorem C152_total {argmax : List K → Nat} (ha : ArgmaxSpec argmax) (ranks : List K) (n t : Nat) (hn : 1 ≤ n) (ht : 1 ≤ t) : ∑ i : Fin n, chance argmax ranks n t i = 1 := by
  classical
  have hn0 : ((n : ℚ)) ^ t ≠ 0 := by positivity
  unfold chance
  rw [← Finset.sum_div, ← Nat.cast_sum, div_eq_one_iff_eq hn0]
  let win : (Fin t → Fin n) → Fin n := fun draw => if h : winner argmax ranks (List.ofFn fun k => (draw k).val) < n then ⟨_, h⟩ else ⟨0, by omega⟩
  have hwin : ∀ draw i, win draw = i ↔ winner argmax ranks (List.ofFn fun k => (draw k).val) = i.val := by
    intro draw i
    have hne : (List.ofFn fun k => (draw k).val) ≠ [] := by
      intro h
      have := congrArg List.length h
      simp at this
      omega
    obtain ⟨k, hk⟩ := (List.mem_ofFn' _ _).1 (winner_spec ha ranks _ hne).1
    have hlt : winner argmax ranks (List.ofFn fun k => (draw k).val) < n := by rw [← hk]; exact (draw k).2
    simp only [win]
    rw [dif_pos hlt]
    exact Fin.ext_iff
  have hcard := Finset.card_eq_sum_card_fiberwise (s := (univ : Finset (Fin t → Fin n))) (t := (univ : Finset (Fin n))) (f := win) (fun _ _ => Finset.mem_coe.2 (Finset.mem_univ _))
  have : (∑ i : Fin n, (univ.filter fun draw : Fin t → Fin n => winner argmax ranks (List.ofFn fun k => (draw k).val) = i.val).card) = n ^ t := by
    rw [show n ^ t = (univ : Finset (Fin t → Fin n)).card by simp, hcard]
    exact Finset.sum_congr rfl fun i _ => congrArg Finset.card (Finset.filter_congr fun draw _ => (hwin draw i).symm)
  rw [this]
  push_cast
  rfl

/-- C152: the better of two solutions has at least the chance of the other; with two or more contestants a larger one; without competition (`t = 1`) all have the same chance. The best solution, if the others are worse, wins
unless it is not drawn; the worst one, if the others are better, only if nobody else is drawn. -/
theorem C152_pressure {argmax : List K → Nat} (ha : ArgmaxSpec argmax) {sort : Selection.Sorter K} (hs : Selection.SorterSpec sort) (hib : Bool) (junk x : List K) (hj : junk.length = x.length) (hn : 2 ≤ x.length)
    (t : Nat) (ht : 1 ≤ t) (i : Fin x.length) :
    (∀ j : Fin x.length, Ranking.Better hib x[i] x[j] →
      chance argmax (Ranking.centered sort hib junk x) x.length t j ≤ chance argmax (Ranking.centered sort hib junk x) x.length t i ∧
      (2 ≤ t → chance argmax (Ranking.centered sort hib junk x) x.length t j < chance argmax (Ranking.centered sort hib junk x) x.length t i)) ∧
    chance argmax (Ranking.centered sort hib junk x) x.length 1 i = 1 / (x.length : ℚ) ∧
    ((∀ j : Fin x.length, j ≠ i → Ranking.Better hib x[i] x[j]) → chance argmax (Ranking.centered sort hib junk x) x.length t i = 1 - (((x.length : ℚ) - 1) / x.length) ^ t) ∧
    ((∀ j : Fin x.length, j ≠ i → Ranking.Better hib x[j] x[i]) → chance argmax (Ranking.centered sort hib junk x) x.length t i = (1 / (x.length : ℚ)) ^ t) := by
  have hn0 : (0 : ℚ) < (x.length : ℚ) := by
    have : 0 < x.length := by omega
    exact_mod_cast this
  have hnt : (0 : ℚ) < (x.length : ℚ) ^ t := pow_pos hn0 t
  obtain ⟨pos, hbij, hbetter, hch⟩ := C152_chances ha hs hib junk x hj hn t ht
  refine ⟨fun j hb => ?_, ?_, fun hall => ?_, fun hall => ?_⟩
  · have hlt : (pos j).val < (pos i).val := hbetter i j hb
    obtain ⟨h1, h2⟩ := pow_gap_mono hlt ht
    rw [hch, hch]
    exact ⟨(div_le_div_iff_of_pos_right hnt).2 h1, fun h => (div_lt_div_iff_of_pos_right hnt).2 (h2 h)⟩
  · obtain ⟨pos', _, _, hch'⟩ := C152_chances ha hs hib junk x hj hn 1 (le_refl 1)
    rw [hch']
    simp
  · have hp : (pos i).val = x.length - 1 := by
      obtain ⟨k, hk⟩ := hbij.2 ⟨x.length - 1, by omega⟩
      by_cases h : k = i
      · rw [← h, hk]
      · have := hbetter i k (hall k h)
        rw [hk] at this
        have h' : x.length - 1 < (pos i).val := this
        have := (pos i).2
        omega
    rw [hch, hp, Nat.cast_sub (by omega), div_pow]
    push_cast
    field_simp
    ring
  · have hp : (pos i).val = 0 := by
      obtain ⟨k, hk⟩ := hbij.2 ⟨0, by omega⟩
      by_cases h : k = i
      · rw [← h, hk]
      · have := hbetter k i (hall k h)
        rw [hk, Fin.lt_def] at this
        exact absurd this (Nat.not_lt_zero _)
    rw [hch, hp]
    have : t ≠ 0 := by omega
    simp [this]

/-- C152: several objectives. With noise in [0, 1] of which no two numbers are equal, the chance of a solution is that of its position in the order which puts better fronts later and, within a front, larger noise later:
with two or more contestants, solutions of better fronts have larger chances. -/
theorem C152_several_objectives {argmax : List K → Nat} (ha : ArgmaxSpec argmax) (fronts : List Nat) (noise : List K) (hl : noise.length = fronts.length) (hnoise : ∀ x ∈ noise, 0 ≤ x ∧ x ≤ 1) (hnd : noise.Nodup)
    (t : Nat) (ht : 1 ≤ t) (i : Fin fronts.length) :
    chance argmax (multiRanks fronts noise) fronts.length t i =
      (((univ.filter fun j : Fin fronts.length => fronts[i] < fronts[j] ∨ fronts[j] = fronts[i] ∧ noise.getD j.val 0 < noise.getD i.val 0).card + 1 : ℚ) ^ t -
        ((univ.filter fun j : Fin fronts.length => fronts[i] < fronts[j] ∨ fronts[j] = fronts[i] ∧ noise.getD j.val 0 < noise.getD i.val 0).card : ℚ) ^ t) / (fronts.length : ℚ) ^ t ∧
    ∀ j : Fin fronts.length, fronts[i] < fronts[j] →
      chance argmax (multiRanks fronts noise) fronts.length t j ≤ chance argmax (multiRanks fronts noise) fronts.length t i ∧
      (2 ≤ t → chance argmax (multiRanks fronts noise) fronts.length t j < chance argmax (multiRanks fronts noise) fronts.length t i) := by
  have hget : ∀ i : Fin fronts.length, (multiRanks fronts noise).getD i.val 0 = (((fronts.foldl max 0 + 1 : Nat) : K) - (fronts[i] : K)) + noise.getD i.val 0 * (1 / 10) := by
    intro i
    have hi' : i.val < noise.length := by rw [hl]; exact i.2
    have hz : (fronts.zip noise)[i.val]? = some (fronts[i], noise[i.val]) := by
      rw [List.getElem?_zip_eq_some]
      exact ⟨List.getElem?_eq_getElem i.2, List.getElem?_eq_getElem hi'⟩
    simp only [multiRanks, List.getD_eq_getElem?_getD, List.getElem?_map, hz, List.getElem?_eq_getElem hi', Option.map_some, Option.getD_some]
  have hn01 : ∀ i : Fin fronts.length, 0 ≤ noise.getD i.val 0 ∧ noise.getD i.val 0 ≤ 1 := by
    intro i
    have hi' : i.val < noise.length := by rw [hl]; exact i.2
    rw [List.getD_eq_getElem?_getD, List.getElem?_eq_getElem hi', Option.getD_some]
    exact hnoise _ (List.getElem_mem hi')
  have hninj : ∀ i j : Fin fronts.length, noise.getD i.val 0 = noise.getD j.val 0 → i = j := by
    intro i j h
    have hi' : i.val < noise.length := by rw [hl]; exact i.2
    have hj' : j.val < noise.length := by rw [hl]; exact j.2
    rw [List.getD_eq_getElem?_getD, List.getElem?_eq_getElem hi', List.getD_eq_getElem?_getD, List.getElem?_eq_getElem hj', Option.getD_some, Option.getD_some] at h
    exact Fin.ext (hnd.getElem_inj_iff.1 h)
  have hlt : ∀ i j : Fin fronts.length, (multiRanks fronts noise).getD j.val 0 < (multiRanks fronts noise).getD i.val 0 ↔ (fronts[i] < fronts[j] ∨ fronts[j] = fronts[i] ∧ noise.getD j.val 0 < noise.getD i.val 0) := by
    intro i j
    rw [hget, hget]
    have h1 := hn01 i
    have h2 := hn01 j
    rcases lt_trichotomy fronts[i] fronts[j] with h | h | h
    · have : (fronts[i] : K) + 1 ≤ (fronts[j] : K) := by exact_mod_cast h
      exact ⟨fun _ => Or.inl h, fun _ => by linarith⟩
    · have hc : (fronts[i] : K) = (fronts[j] : K) := by exact_mod_cast h
      constructor
      · intro hh
        exact Or.inr ⟨h.symm, by linarith⟩
      · rintro (hh | ⟨_, hh⟩)
        · omega
        · linarith
    · have : (fronts[j] : K) + 1 ≤ (fronts[i] : K) := by exact_mod_cast h
      constructor
      · intro hh; linarith
      · rintro (hh | ⟨hh, _⟩) <;> omega
  have hinj : Function.Injective fun i : Fin fronts.length => (multiRanks fronts noise).getD i.val 0 := by
    intro i j hij
    have h1 : ¬ (multiRanks fronts noise).getD j.val 0 < (multiRanks fronts noise).getD i.val 0 := by simp only at hij; rw [hij]; exact lt_irrefl _
    have h2 : ¬ (multiRanks fronts noise).getD i.val 0 < (multiRanks fronts noise).getD j.val 0 := by simp only at hij; rw [hij]; exact lt_irrefl _
    rw [hlt] at h1 h2
    push Not at h1 h2
    have hf : fronts[j] = fronts[i] := le_antisymm h1.1 h2.1
    exact hninj i j (le_antisymm (h1.2 hf) (h2.2 hf.symm))
  have hn0 : (0 : ℚ) < (fronts.length : ℚ) ^ t := by
    have : 0 < fronts.length := lt_of_le_of_lt (Nat.zero_le _) i.2
    have : (0 : ℚ) < fronts.length := by exact_mod_cast this
    exact pow_pos this t
  obtain ⟨pos, h1, _, h3⟩ := lower_card _ hinj
  constructor
  · refine chance_eq ha _ hinj ht i _ ?_
    exact congrArg Finset.card (Finset.filter_congr fun j _ => hlt i j)
  · intro j hij
    have hp : pos j < pos i := (h3 i j).1 ((hlt i j).2 (Or.inl hij))
    obtain ⟨g1, g2⟩ := pow_gap_mono hp ht
    rw [chance_eq ha _ hinj ht i (pos i) (h1 i), chance_eq ha _ hinj ht j (pos j) (h1 j)]
    exact ⟨(div_le_div_iff_of_pos_right hn0).2 g1, fun h => (div_lt_div_iff_of_pos_right hn0).2 (g2 h)⟩

/-- C152: the parents are chosen independently of each other: for any choice of the parents of `m` cross-overs, its probability is the product of the chances. -/
theorem C152_independent (argmax : List K → Nat) (ranks : List K) (n t m : Nat) (a b : Fin m → Fin n) :
    parentsChance argmax ranks n t m a b = ∏ k, chance argmax ranks n t (a k) * chance argmax ranks n t (b k) := by
  classical
  let wins : Fin n → Finset (Fin t → Fin n) := fun i => univ.filter fun draw : Fin t → Fin n => winner argmax ranks (List.ofFn fun k => (draw k).val) = i.val
  have hset : (univ.filter fun draw : Fin (m + m) → Fin t → Fin n => tournamentParents argmax ranks (List.ofFn fun r => List.ofFn fun k => (draw r k).val) =
      (List.ofFn fun k => (a k).val, List.ofFn fun k => (b k).val)) = Fintype.piFinset fun r : Fin (m + m) => wins (Fin.append a b r) := by
    ext draw
    rw [Finset.mem_filter, Fintype.mem_piFinset]
    simp only [Finset.mem_univ, true_and, wins, Finset.mem_filter]
    have hsplit : tournamentParents argmax ranks (List.ofFn fun r => List.ofFn fun k => (draw r k).val) =
        (List.ofFn fun k : Fin m => winner argmax ranks (List.ofFn fun l => (draw (Fin.castAdd m k) l).val), List.ofFn fun k : Fin m => winner argmax ranks (List.ofFn fun l => (draw (Fin.natAdd m k) l).val)) := by
      unfold tournamentParents
      have hm : (List.ofFn fun r : Fin (m + m) => winner argmax ranks (List.ofFn fun k => (draw r k).val)) =
          (List.ofFn fun k : Fin m => winner argmax ranks (List.ofFn fun l => (draw (Fin.castAdd m k) l).val)) ++ (List.ofFn fun k : Fin m => winner argmax ranks (List.ofFn fun l => (draw (Fin.natAdd m k) l).val)) := by
        rw [← List.ofFn_fin_append]
        congr 1
        funext r
        refine Fin.addCases (fun k => ?_) (fun k => ?_) r
        · rw [Fin.append_left]
        · rw [Fin.append_right]
      simp only [List.map_ofFn, Function.comp_def, hm]
      have hh : (m + m) / 2 = m := by omega
      simp [hh, List.take_append, List.drop_append]
    rw [hsplit, Prod.mk.injEq, List.ofFn_inj, List.ofFn_inj, funext_iff, funext_iff]
    constructor
    · rintro ⟨h1, h2⟩ r
      refine Fin.addCases (fun k => ?_) (fun k => ?_) r
      · rw [Fin.append_left]; exact h1 k
      · rw [Fin.append_right]; exact h2 k
    · intro h
      refine ⟨fun k => ?_, fun k => ?_⟩
      · have := h (Fin.castAdd m k); rwa [Fin.append_left] at this
      · have := h (Fin.natAdd m k); rwa [Fin.append_right] at this
  unfold parentsChance chance
  rw [hset, Fintype.card_piFinset, Fin.prod_univ_add]
  simp only [Fin.append_left, Fin.append_right]
  rw [Finset.prod_mul_distrib]
  simp only [wins, Nat.cast_mul, Nat.cast_prod, Finset.prod_div_distrib, Finset.prod_const, Finset.card_univ, Fintype.card_fin]
  rw [div_mul_div_comm, ← pow_mul, ← pow_add, Nat.mul_add]

/-! ### The hypotheses are met -/

/-- Four solutions, the third being the best (when maximised), tournaments of two. -/
example : chance exArgmax (Ranking.centered Selection.exampleSorter true [(7 : ℚ), 7, 7, 7] [(1 : ℚ), 2, 9, 4]) 4 2 2 = 7 / 16 := by
  obtain ⟨_, _, h, _⟩ := C152_pressure exArgmax_spec Selection.exampleSorter_spec true [(7 : ℚ), 7, 7, 7] [(1 : ℚ), 2, 9, 4] rfl (by decide) 2 (by decide) 2
  refine (h ?_).trans (by norm_num)
  intro j hj
  match j with
  | 0 => exact (by decide +kernel : (1 : ℚ) < 9)
  | 1 => exact (by decide +kernel : (2 : ℚ) < 9)
  | 2 => exact absurd rfl hj
  | 3 => exact (by decide +kernel : (4 : ℚ) < 9)

end EvoTorch.SelectionPressure
