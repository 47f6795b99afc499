import Verif.Model.NanSelection
import Verif.Proofs.Selection
import Verif.Props.Ranking
import Mathlib.Data.List.Perm.Subperm
import Mathlib.Data.Rat.Floor
/-!
C150: solutions whose evaluation is NaN.
-/
namespace EvoTorch.NanSelection
open Selection (Sorter IsArgsort)
open BestWorst (Sense)
variable {K V : Type} [LinearOrder K]

/-! ### Specification -/

/-- `torch.argsort`: NaN is greater than any number. -/
def TorchLe (a b : Flt K) : Prop := b.isNan = true ∨ Flt.le a b = true

/-- What `torch.argsort` returns, ascending or descending; the order of ties is open. -/
def TorchSort (sort : Sorter (Flt K)) : Prop := ∀ l, IsArgsort TorchLe l (sort false l) ∧ IsArgsort (fun a b => TorchLe b a) l (sort true l)

/-- What users rely on: `a` is worse than `b`, where NaN is worse than any number. -/
def Worse (s : Sense) (a b : Flt K) : Prop := b.isNan = false ∧ (a.isNan = true ∨ match s with | .min => Flt.lt b a = true | .max => Flt.lt a b = true)

/-! ### Proofs -/

theorem torchLe_nan (a b : Flt K) (h : TorchLe a b) (ha : a.isNan = true) : b.isNan = true := by
  rcases h with h | h
  · exact h
  · cases a <;> simp [Flt.isNan] at ha
    simp [Flt.le] at h

theorem torchLe_refl (a : Flt K) : TorchLe a a := by
  cases a <;> simp [TorchLe, Flt.isNan, Flt.le]

theorem torchLe_min (a b : Flt K) (h : TorchLe a b) : ¬ Worse .min a b := by
  rintro ⟨h1, h2⟩
  rcases h with h | h
  · rw [h] at h1; cases h1
  · cases a <;> cases b <;> simp_all [Flt.isNan, Flt.le, Flt.lt]
    rename_i x y; exact absurd h2 (not_lt.mpr h)

theorem argsort_perm {sort : Sorter (Flt K)} (h : TorchSort sort) (b : Bool) (l : List (Flt K)) : (sort b l).Perm (List.range l.length) := by
  cases b
  · exact (h l).1.1
  · exact (h l).2.1

theorem nanIndices (l : List (Flt K)) : ((List.range l.length).filter fun i => (l[i]?).any Flt.isNan).length = l.countP Flt.isNan := by
  have h : (List.range l.length).map (fun i => l[i]?) = l.map some := by
    apply List.ext_getElem?
    intro k
    rw [List.getElem?_map, List.getElem?_map]
    by_cases hk : k < l.length
    · rw [List.getElem?_range hk]; simp [hk]
    · rw [List.getElem?_eq_none (by simpa using hk), List.getElem?_eq_none (by omega)]; rfl
  have h2 : (l.map some).countP (fun o => o.any Flt.isNan) = l.countP Flt.isNan := by
    rw [List.countP_map]; rfl
  rw [← h2, ← h, List.countP_map, List.countP_eq_length_filter]
  rfl

/-- In descending order NaNs come first. -/
theorem desc_first {sort : Sorter (Flt K)} (h : TorchSort sort) (l : List (Flt K)) (k : Nat) {i j : Nat} {x : Flt K} (hi : i ∈ (sort true l).take k)
    (hx : l[i]? = some x) (hn : x.isNan = false) (hj : l[j]? = some .nan) : j ∈ (sort true l).take k := by
  by_contra hc
  have := (h l).2.take_le k hi hc hx hj
  rw [torchLe_nan _ _ this rfl] at hn
  cases hn

theorem desc_only {sort : Sorter (Flt K)} (h : TorchSort sort) (l : List (Flt K)) (k : Nat) (hk : k ≤ l.countP Flt.isNan) {i : Nat} (hi : i ∈ (sort true l).take k) :
    l[i]? = some .nan := by
  have hlt := (h l).2.lt ((List.take_sublist k _).subset hi)
  rw [List.getElem?_eq_getElem hlt]
  by_contra hc
  have hn : l[i].isNan = false := by
    cases hx : l[i] with
    | nan => rw [hx] at hc; exact absurd rfl hc
    | _ => rfl
  have hsub : (i :: (List.range l.length).filter fun i => (l[i]?).any Flt.isNan) ⊆ (sort true l).take k := by
    intro j hj
    rcases List.mem_cons.1 hj with rfl | hj
    · exact hi
    · rw [List.mem_filter] at hj
      cases hlj : l[j]? with
      | none => rw [hlj] at hj; simp at hj
      | some y =>
        rw [hlj] at hj
        have : y = .nan := by
          have := hj.2
          cases y <;> simp [Flt.isNan] at this ⊢
        subst this
        exact desc_first h l k hi (List.getElem?_eq_getElem hlt) hn hlj
  have hnd : (i :: (List.range l.length).filter fun i => (l[i]?).any Flt.isNan).Nodup := by
    refine List.nodup_cons.2 ⟨?_, List.nodup_range.filter _⟩
    rw [List.mem_filter, List.getElem?_eq_getElem hlt]
    simp [hn]
  have := (hnd.subperm hsub).length_le
  rw [List.length_cons, nanIndices, List.length_take] at this
  omega

theorem pos_lt {r : Flt K → Flt K → Prop} {l : List (Flt K)} {p : List Nat} (h : IsArgsort r l p) (hr : ∀ a, r a a) {a b i j : Nat} {x y : Flt K} (hi : p[a]? = some i) (hj : p[b]? = some j)
    (hx : l[i]? = some x) (hy : l[j]? = some y) (hn : ¬ r x y) : b < a := by
  rcases Nat.lt_trichotomy a b with hab | rfl | hab
  · exfalso
    obtain ⟨ha, ha'⟩ := List.getElem?_eq_some_iff.mp hi
    obtain ⟨hb, hb'⟩ := List.getElem?_eq_some_iff.mp hj
    exact hn (List.pairwise_iff_getElem.mp h.2 a b ha hb hab x y (by rw [← hx]; congr 1) (by rw [← hy]; congr 1))
  · rw [hi] at hj; cases hj
    rw [hx] at hy; cases hy
    exact absurd (hr x) hn
  · exact hab

theorem scatter_lt {r : Flt K → Flt K → Prop} {W : Type} [LT W] {l : List (Flt K)} {p : List Nat} (h : IsArgsort r l p) (hr : ∀ a, r a a) (junk : List W) (hjk : junk.length = l.length) (g : Nat → W) (hg : ∀ a b, a < b → g a < g b)
    {i j : Nat} {x y : Flt K} {wi wj : W} (hx : l[i]? = some x) (hy : l[j]? = some y) (hn : ¬ r x y)
    (hwi : (Ranking.scatter junk p ((List.range l.length).map g))[i]? = some wi) (hwj : (Ranking.scatter junk p ((List.range l.length).map g))[j]? = some wj) : wj < wi := by
  have hmem : ∀ {i : Nat} {x : Flt K}, l[i]? = some x → ∃ a : Nat, p[a]? = some i := fun hx =>
    List.mem_iff_getElem?.mp (h.1.mem_iff.mpr (List.mem_range.mpr (List.getElem?_eq_some_iff.mp hx).1))
  obtain ⟨a, ha⟩ := hmem hx
  obtain ⟨b, hb⟩ := hmem hy
  have hlt := pos_lt h hr ha hb hx hy hn
  have hlen : p.length = ((List.range l.length).map g).length := by simp [h.length]
  rw [Ranking.scatter_get _ _ _ h.nodup hlen (fun i hi => by rw [hjk]; exact h.lt hi) a i ha] at hwi
  rw [Ranking.scatter_get _ _ _ h.nodup hlen (fun i hi => by rw [hjk]; exact h.lt hi) b j hb] at hwj
  have hal : a < l.length := by rw [← h.length]; exact (List.getElem?_eq_some_iff.mp ha).1
  have hbl : b < l.length := by rw [← h.length]; exact (List.getElem?_eq_some_iff.mp hb).1
  rw [List.getElem?_map, List.getElem?_range hal] at hwi
  rw [List.getElem?_map, List.getElem?_range hbl] at hwj
  cases hwi; cases hwj
  exact hg _ _ hlt

/-- The weight `nes` gives to rank `r`, before normalisation. -/
noncomputable def nesAt (n r : Nat) : ℝ := max 0 (Real.log ((n : ℝ) / 2 + 1) - Real.log ((n : ℝ) - (r : ℝ)))

theorem nesAt_lt {n a b : Nat} (hab : a < b) (hb : b < n) : nesAt n a < nesAt n b ∨ (nesAt n a = 0 ∧ nesAt n b = 0) := by
  have h1 : Real.log ((n : ℝ) - (b : ℝ)) < Real.log ((n : ℝ) - (a : ℝ)) := by
    have hab' : (a : ℝ) < b := by exact_mod_cast hab
    have hb' : (b : ℝ) < n := by exact_mod_cast hb
    exact Real.log_lt_log (by linarith) (by linarith)
  unfold nesAt
  rcases le_or_gt (Real.log ((n : ℝ) / 2 + 1) - Real.log ((n : ℝ) - (b : ℝ))) 0 with h | h
  · exact Or.inr ⟨max_eq_left (by linarith), max_eq_left h⟩
  · exact Or.inl (max_lt (lt_max_of_lt_right h) (lt_max_of_lt_right (by linarith)))

/-- What `nes` gives to the row at rank `a`. -/
theorem nes_get {α : Type} {sort : Sorter α} {hib : Bool} {x : List α} (hp : (sort (!hib) x).Perm (List.range x.length)) (junk : List Nat) (hj : junk.length = x.length) :
    ∃ S : ℝ, 0 < S ∧ ∀ a i : Nat, (sort (!hib) x)[a]? = some i → (Ranking.nes sort hib junk x)[i]? = some (nesAt x.length a / S - 1 / (x.length : ℝ)) := by
  rcases Nat.eq_zero_or_pos x.length with h0 | hn
  · refine ⟨1, one_pos, fun a i hi => ?_⟩
    rw [h0] at hp
    rw [hp.eq_nil] at hi
    simp at hi
  have hsp : (Ranking.scatter junk (sort (!hib) x) (List.range x.length)).Perm (List.range x.length) := Ranking.scatter_perm hp (by simp) hj
  have hw : ∀ r, r < x.length → (Ranking.nesWeights x.length).getD r 0 = nesAt x.length r := by
    intro r hr
    simp [Ranking.nesWeights, nesAt, List.getD_eq_getElem?_getD, List.getElem?_range hr]
  have hnn : ∀ r, 0 ≤ nesAt x.length r := fun r => le_max_left _ _
  refine ⟨((Ranking.scatter junk (sort (!hib) x) (List.range x.length)).map fun r => (Ranking.nesWeights x.length).getD r 0).sum, ?_, ?_⟩
  · rw [(hsp.map _).sum_eq]
    obtain ⟨m, hm⟩ : ∃ m, x.length = m + 1 := ⟨x.length - 1, by omega⟩
    have hlast : 0 < nesAt x.length m := by
      unfold nesAt
      apply lt_max_of_lt_right
      rw [hm]
      have : ((m + 1 : Nat) : ℝ) - (m : ℝ) = 1 := by push_cast; ring
      rw [this, Real.log_one, sub_zero]
      apply Real.log_pos
      have : (0 : ℝ) < ((m + 1 : Nat) : ℝ) := by positivity
      linarith
    have hsum : 0 ≤ ((List.range m).map fun r => (Ranking.nesWeights x.length).getD r 0).sum := by
      apply List.sum_nonneg
      intro y hy
      obtain ⟨r, hr, rfl⟩ := List.mem_map.1 hy
      rw [hw r (by have := List.mem_range.1 hr; omega)]
      exact hnn r
    rw [hm] at hsum hlast hw ⊢
    rw [List.range_succ, List.map_append, List.sum_append, List.map_cons, List.map_nil, List.sum_cons, List.sum_nil, hw m (by omega)]
    linarith
  · intro a i hi
    have hnd : (sort (!hib) x).Nodup := hp.nodup_iff.2 List.nodup_range
    have hlt : ∀ k ∈ sort (!hib) x, k < junk.length := fun k hk => by rw [hj]; exact List.mem_range.1 (hp.mem_iff.1 hk)
    have ha : a < x.length := by
      have := (List.getElem?_eq_some_iff.1 hi).1
      rw [hp.length_eq] at this
      simpa using this
    have hg := Ranking.scatter_get (sort (!hib) x) (List.range x.length) junk hnd (by rw [hp.length_eq]) hlt a i hi
    rw [List.getElem?_range ha] at hg
    simp only [Ranking.nes, List.getElem?_map, hg, Option.map_some, hw a ha]

/-- Rows which are sorted after others never get a smaller utility, and a larger one unless both are cut off. -/
theorem nes_lt {r : Flt K → Flt K → Prop} {sort : Sorter (Flt K)} {hib : Bool} {col : List (Flt K)} (h : IsArgsort r col (sort (!hib) col)) (hr : ∀ a, r a a) (junk : List Nat) (hj : junk.length = col.length)
    {i j : Nat} {x y : Flt K} {ui uj : ℝ} (hx : col[i]? = some x) (hy : col[j]? = some y) (hn : ¬ r x y)
    (hui : (Ranking.nes sort hib junk col)[i]? = some ui) (huj : (Ranking.nes sort hib junk col)[j]? = some uj) :
    uj < ui ∨ (ui = - (1 / (col.length : ℝ)) ∧ uj = - (1 / (col.length : ℝ))) := by
  have hmem : ∀ {i : Nat} {x : Flt K}, col[i]? = some x → ∃ a : Nat, (sort (!hib) col)[a]? = some i := fun hx =>
    List.mem_iff_getElem?.mp (h.1.mem_iff.mpr (List.mem_range.mpr (List.getElem?_eq_some_iff.mp hx).1))
  obtain ⟨a, ha⟩ := hmem hx
  obtain ⟨b, hb⟩ := hmem hy
  have hlt := pos_lt h hr ha hb hx hy hn
  have hal : a < col.length := by rw [← h.length]; exact (List.getElem?_eq_some_iff.mp ha).1
  obtain ⟨S, hS, hget⟩ := nes_get h.1 junk hj
  rw [hget a i ha] at hui
  rw [hget b j hb] at huj
  cases hui; cases huj
  rcases nesAt_lt hlt hal with h1 | ⟨h1, h2⟩
  · exact Or.inl (sub_lt_sub_right ((div_lt_div_iff_of_pos_right hS).2 h1) _)
  · right
    rw [h1, h2]
    simp

/-! ### Theorems -/

/-- C150, partial (minimisation): `argsort` lists every row once and never a worse row before a better one, NaN being worst; `take_best(k)` takes `min k n` distinct rows, and none of them is worse than a
row left out. -/
theorem C150_take_best_partial {sort : Sorter (Flt K)} (h : TorchSort sort) (col : List (Flt K)) (k : Nat) :
    (Selection.argsort sort .min col).Perm (List.range col.length) ∧
    (Selection.argsort sort .min col).Pairwise (fun i j => ∀ x y, col[i]? = some x → col[j]? = some y → ¬ Worse .min x y) ∧
    (Selection.takeBestIndices sort .min col k).length = min k col.length ∧ (Selection.takeBestIndices sort .min col k).Nodup ∧
    ∀ i ∈ Selection.takeBestIndices sort .min col k, ∀ j, j ∉ Selection.takeBestIndices sort .min col k → ∀ x y, col[i]? = some x → col[j]? = some y → ¬ Worse .min x y := by
  have hs : IsArgsort TorchLe col (Selection.argsort sort .min col) := (h col).1
  refine ⟨hs.1, hs.2.imp fun hij x y hx hy => torchLe_min _ _ (hij x y hx hy), ?_, (List.take_sublist k _).nodup hs.nodup, ?_⟩
  · simp [Selection.takeBestIndices, hs.length]
  · intro i hi j hj x y hx hy
    exact torchLe_min _ _ (hs.take_le k hi hj hx hy)

/-- C150 fails for maximisation: `take_best` takes the NaN rows first; if there are `k` of them it takes nothing else. -/
theorem C150_violated_maximised {sort : Sorter (Flt K)} (h : TorchSort sort) (col : List (Flt K)) (k : Nat) :
    (∀ i ∈ Selection.takeBestIndices sort .max col k, ∀ x, col[i]? = some x → x.isNan = false → ∀ j, col[j]? = some .nan → j ∈ Selection.takeBestIndices sort .max col k) ∧
    (k ≤ col.countP Flt.isNan → ∀ i ∈ Selection.takeBestIndices sort .max col k, col[i]? = some .nan) :=
  ⟨fun _ hi _ hx hn _ hj => desc_first h col k hi hx hn hj, fun hk _ hi => desc_only h col k hk hi⟩

/-- C150, partial (minimisation): with the rankings `centered` and `linear` a worse row, NaN being worst, gets a smaller weight. -/
theorem C150_ranks_partial {L : Type} [Field L] [LinearOrder L] [IsStrictOrderedRing L] {sort : Sorter (Flt K)} (h : TorchSort sort) (col : List (Flt K)) (hn : 2 ≤ col.length) (junk : List L) (hj : junk.length = col.length)
    (i j : Nat) (x y : Flt K) (wi wj : L) (hx : col[i]? = some x) (hy : col[j]? = some y) (hw : Worse .min y x) :
    ((Ranking.centered sort false junk col)[i]? = some wi → (Ranking.centered sort false junk col)[j]? = some wj → wj < wi) ∧
    ((Ranking.linear sort false junk col)[i]? = some wi → (Ranking.linear sort false junk col)[j]? = some wj → wj < wi) := by
  have hm := Ranking.weight_mono (K := L) col.length hn
  have hr : ¬ TorchLe y x := fun hc => torchLe_min _ _ hc hw
  constructor
  · exact scatter_lt (h col).2 torchLe_refl junk hj _ (fun a b hab => sub_lt_sub_right (hm hab) _) hx hy hr
  · exact scatter_lt (h col).2 torchLe_refl junk hj _ (fun a b hab => hm hab) hx hy hr

/-- C150 fails for maximisation: with the rankings `centered` and `linear` a NaN row gets a larger weight than any proper one. -/
theorem C150_violated_ranks {L : Type} [Field L] [LinearOrder L] [IsStrictOrderedRing L] {sort : Sorter (Flt K)} (h : TorchSort sort) (col : List (Flt K)) (hn : 2 ≤ col.length) (junk : List L) (hj : junk.length = col.length)
    (i j : Nat) (x : Flt K) (wi wj : L) (hx : col[i]? = some x) (hp : x.isNan = false) (hy : col[j]? = some .nan) :
    ((Ranking.centered sort true junk col)[i]? = some wi → (Ranking.centered sort true junk col)[j]? = some wj → wi < wj) ∧
    ((Ranking.linear sort true junk col)[i]? = some wi → (Ranking.linear sort true junk col)[j]? = some wj → wi < wj) := by
  have hm := Ranking.weight_mono (K := L) col.length hn
  have hr : ¬ TorchLe Flt.nan x := fun hc => by rw [torchLe_nan _ _ hc rfl] at hp; cases hp
  constructor
  · exact fun h1 h2 => scatter_lt (h col).1 torchLe_refl junk hj _ (fun a b hab => sub_lt_sub_right (hm hab) _) hy hx hr h2 h1
  · exact fun h1 h2 => scatter_lt (h col).1 torchLe_refl junk hj _ (fun a b hab => hm hab) hy hx hr h2 h1

/-- C150, partial (minimisation): with the ranking `nes` a worse row, NaN being worst, gets a smaller utility, unless both rows are among those cut off (which all get `-1/n`). -/
theorem C150_nes_partial {sort : Sorter (Flt K)} (h : TorchSort sort) (col : List (Flt K)) (junk : List Nat) (hj : junk.length = col.length)
    (i j : Nat) (x y : Flt K) (ui uj : ℝ) (hx : col[i]? = some x) (hy : col[j]? = some y) (hw : Worse .min y x)
    (hui : (Ranking.nes sort false junk col)[i]? = some ui) (huj : (Ranking.nes sort false junk col)[j]? = some uj) :
    uj < ui ∨ (ui = - (1 / (col.length : ℝ)) ∧ uj = - (1 / (col.length : ℝ))) :=
  nes_lt (sort := sort) (hib := false) (h col).2 torchLe_refl junk hj hx hy (fun hc => torchLe_min _ _ hc hw) hui huj

/-- C150 fails for maximisation with the ranking `nes` (the default of `SNES` and `XNES`): a NaN row gets a larger utility than any proper one, unless both are cut off. -/
theorem C150_violated_nes {sort : Sorter (Flt K)} (h : TorchSort sort) (col : List (Flt K)) (junk : List Nat) (hj : junk.length = col.length)
    (i j : Nat) (x : Flt K) (ui uj : ℝ) (hx : col[i]? = some x) (hp : x.isNan = false) (hy : col[j]? = some .nan)
    (hui : (Ranking.nes sort true junk col)[i]? = some ui) (huj : (Ranking.nes sort true junk col)[j]? = some uj) :
    ui < uj ∨ (uj = - (1 / (col.length : ℝ)) ∧ ui = - (1 / (col.length : ℝ))) :=
  nes_lt (sort := sort) (hib := true) (h col).1 torchLe_refl junk hj hy hx (fun hc => by rw [torchLe_nan _ _ hc rfl] at hp; cases hp) huj hui

/-- C150 fails for the cross-entropy method, for either sense: if there are at least as many NaNs as elites, all elites are samples whose evaluation is NaN. -/
theorem C150_violated_elites {L : Type} [Field L] [LinearOrder L] [FloorRing L] [Neg K] {d : Nat} {sort : Sorter (Flt K)} (h : TorchSort sort) (hib : Bool) (ratio : L) (samples : List (Distribution.Vec L d)) (fits : List (Flt K))
    (hlen : samples.length = fits.length) (hk : ⌊(samples.length : L) * ratio⌋.toNat ≤ fits.countP Flt.isNan) :
    ∀ e ∈ Distribution.elites sort ratio samples (raw hib fits), ∃ i : Nat, samples[i]? = some e ∧ fits[i]? = some Flt.nan := by
  intro e he
  simp only [Distribution.elites, Distribution.gather, List.mem_filterMap] at he
  obtain ⟨i, hi, hs⟩ := he
  refine ⟨i, hs, ?_⟩
  have hneg : ∀ a : Flt K, a.neg.isNan = a.isNan := fun a => by cases a <;> rfl
  have hc : (raw hib fits).countP Flt.isNan = fits.countP Flt.isNan := by
    unfold raw
    split
    · rfl
    · rw [List.countP_map]; congr 1; funext a; exact hneg a
  have := desc_only h (raw hib fits) _ (by rw [hc]; exact hk) hi
  unfold raw at this
  split at this
  · exact this
  · rw [List.getElem?_map] at this
    cases hf : fits[i]? with
    | none => rw [hf] at this; cases this
    | some a =>
      rw [hf] at this
      simp only [Option.map_some, Option.some.injEq] at this
      cases a <;> simp [Flt.neg] at this ⊢

/-- What is kept in an elitist step. -/
theorem kept_of {sort : Sorter (Flt K)} {s : Sense} {f : V → Flt K} {popsize : Nat} {ops : List V → List V} {pop : List V} {v : V} :
    v ∈ elitistStep sort s f popsize ops pop ↔ ∃ i ∈ Selection.takeBestIndices sort s ((pop ++ ops pop).map f) popsize, (pop ++ ops pop)[i]? = some v := by
  simp [elitistStep, List.mem_filterMap]

theorem flt_le_trans {a b c : Flt K} (h1 : ¬ Worse .min a b) (h2 : ¬ Worse .min b c) (ha : a.isNan = false) : ¬ Worse .min a c := by
  intro h3
  cases a <;> cases b <;> cases c <;> simp_all [Worse, Flt.isNan, Flt.lt]
  rename_i x y z
  exact absurd h3 (not_lt.mpr (le_trans h1 h2))

theorem elitist_step_min {sort : Sorter (Flt K)} (h : TorchSort sort) (f : V → Flt K) {popsize : Nat} (hp : 1 ≤ popsize) (ops : List V → List V) (pop : List V) (v : V) (hv : v ∈ pop) (hf : (f v).isNan = false) :
    ∃ u ∈ elitistStep sort .min f popsize ops pop, (f u).isNan = false ∧ ¬ Worse .min (f u) (f v) := by
  set cand := pop ++ ops pop with hcand
  have hvc : v ∈ cand := by simp [hcand, hv]
  obtain ⟨j, hj⟩ := List.mem_iff_getElem?.mp hvc
  have hfj : (cand.map f)[j]? = some (f v) := by rw [List.getElem?_map, hj]; rfl
  obtain ⟨_, _, hlen, _, hbest⟩ := C150_take_best_partial h (cand.map f) popsize
  by_cases hin : j ∈ Selection.takeBestIndices sort .min (cand.map f) popsize
  · refine ⟨v, kept_of.2 ⟨j, hin, hj⟩, hf, ?_⟩
    rintro ⟨_, h2 | h2⟩
    · rw [hf] at h2; cases h2
    · generalize f v = a at h2
      cases a <;> simp [Flt.lt] at h2
  · have hne : 0 < (Selection.takeBestIndices sort .min (cand.map f) popsize).length := by
      rw [hlen]
      have : 0 < (cand.map f).length := by simpa using List.length_pos_of_mem hvc
      omega
    obtain ⟨i, hi⟩ := List.exists_mem_of_length_pos hne
    have hilt : i < (cand.map f).length := (h (cand.map f)).1.lt ((List.take_sublist popsize _).subset hi)
    have hilt' : i < cand.length := by simpa using hilt
    have hu : (cand.map f)[i]? = some (f cand[i]) := by rw [List.getElem?_map, List.getElem?_eq_getElem hilt']; rfl
    have hnw := hbest i hi j hin _ _ hu hfj
    refine ⟨cand[i], kept_of.2 ⟨i, hi, List.getElem?_eq_getElem hilt'⟩, ?_, hnw⟩
    cases hx : (f cand[i]).isNan with
    | false => rfl
    | true => exact absurd ⟨hf, .inl hx⟩ hnw

/-- C150, partial (minimisation): elitist runs of any length, whatever the operators produce and however many evaluations are NaN: a member of the population whose evaluation is a number is matched later by
one whose evaluation is a number and not worse. -/
theorem C150_elitist_partial {sort : Sorter (Flt K)} (h : TorchSort sort) (f : V → Flt K) {popsize : Nat} (hp : 1 ≤ popsize) (opss : List (List V → List V)) (pop : List V) (v : V) (hv : v ∈ pop) (hf : (f v).isNan = false) :
    ∃ u ∈ elitistRun sort .min f popsize opss pop, (f u).isNan = false ∧ ¬ Worse .min (f u) (f v) := by
  induction opss generalizing pop v with
  | nil =>
    refine ⟨v, hv, hf, ?_⟩
    rintro ⟨_, h2 | h2⟩
    · rw [hf] at h2; cases h2
    · generalize f v = a at h2
      cases a <;> simp [Flt.lt] at h2
  | cons ops rest ih =>
    obtain ⟨u, hu, huf, huw⟩ := elitist_step_min h f hp ops pop v hv hf
    obtain ⟨w, hw, hwf, hww⟩ := ih (elitistStep sort .min f popsize ops pop) u hu huf
    exact ⟨w, hw, hwf, flt_le_trans hww huw hwf⟩

theorem step_length {sort : Sorter (Flt K)} (h : TorchSort sort) (s : Sense) (f : V → Flt K) (popsize : Nat) (ops : List V → List V) (pop : List V) (hp : popsize ≤ (pop ++ ops pop).length) :
    (elitistStep sort s f popsize ops pop).length = popsize := by
  have hperm := argsort_perm h (s == .max) ((pop ++ ops pop).map f)
  have hall : ∀ i ∈ Selection.takeBestIndices sort s ((pop ++ ops pop).map f) popsize, ((pop ++ ops pop)[i]?).isSome = true := by
    intro i hi
    have : i < ((pop ++ ops pop).map f).length := List.mem_range.mp (hperm.mem_iff.mp ((List.take_sublist popsize _).subset hi))
    simpa using this
  have hl : (Selection.takeBestIndices sort s ((pop ++ ops pop).map f) popsize).length = popsize := by
    simp only [Selection.takeBestIndices, Selection.argsort, List.length_take, hperm.length_eq, List.length_range, List.length_map]
    omega
  unfold elitistStep
  dsimp only
  refine Eq.trans ?_ hl
  generalize Selection.takeBestIndices sort s ((pop ++ ops pop).map f) popsize = idx at hall
  clear hl
  induction idx with
  | nil => rfl
  | cons a idx ih =>
    have ha := hall a (by simp)
    obtain ⟨y, hy⟩ := Option.isSome_iff_exists.mp ha
    rw [List.filterMap_cons, hy]
    simp only [List.length_cons]
    rw [ih fun i hi => hall i (by simp [hi])]

/-- C150 fails for maximisation: once the children of an elitist step have as many NaNs as the population has places, all its members are lost: from then on, whatever the operators produce, the population
consists of solutions whose evaluation is NaN. -/
theorem C150_violated_elitist {sort : Sorter (Flt K)} (h : TorchSort sort) (f : V → Flt K) (pop : List V) (ops : List V → List V) (hc : pop.length ≤ (ops pop).countP fun v => (f v).isNan) (rest : List (List V → List V)) :
    (elitistRun sort .max f pop.length (ops :: rest) pop).length = pop.length ∧ ∀ v ∈ elitistRun sort .max f pop.length (ops :: rest) pop, f v = .nan := by
  have one : ∀ (n : Nat) (p : List V) (ops : List V → List V), n ≤ (p ++ ops p).countP (fun v => (f v).isNan) → ∀ v ∈ elitistStep sort .max f n ops p, f v = .nan := by
    intro n p ops hn v hv
    obtain ⟨i, hi, hvi⟩ := kept_of.1 hv
    have := (C150_violated_maximised h ((p ++ ops p).map f) n).2 (by rw [List.countP_map]; exact hn) i hi
    rw [List.getElem?_map, hvi] at this
    simpa using this
  have many : ∀ (rest : List (List V → List V)) (p : List V), (∀ v ∈ p, f v = .nan) →
      (elitistRun sort .max f p.length rest p).length = p.length ∧ ∀ v ∈ elitistRun sort .max f p.length rest p, f v = .nan := by
    intro rest
    induction rest with
    | nil => exact fun p hp => ⟨rfl, hp⟩
    | cons o rest ih =>
      intro p hp
      have hl := step_length h .max f p.length o p (by simp)
      have hall := one p.length p o (by
        rw [List.countP_append]
        have : p.countP (fun v => (f v).isNan) = p.length := List.countP_eq_length.mpr fun v hv => by rw [hp v hv]; rfl
        omega)
      have := ih _ hall
      rw [hl] at this
      exact this
  have hl := step_length h .max f pop.length ops pop (by simp)
  have := many rest (elitistStep sort .max f pop.length ops pop) (one _ _ _ (by rw [List.countP_append]; omega))
  rw [hl] at this
  exact this

/-! ### The hypotheses are met -/

/-- NaN above everything. -/
def torchLe (a b : Flt K) : Bool := b.isNan || Flt.le a b

/-- A sorter. -/
def exampleSort : Sorter (Flt K) := fun desc l =>
  (List.range l.length).mergeSort fun i j => if desc then torchLe (l.getD j .nan) (l.getD i .nan) else torchLe (l.getD i .nan) (l.getD j .nan)

theorem torchLe_trans (a b c : Flt K) (h1 : torchLe a b = true) (h2 : torchLe b c = true) : torchLe a c = true := by
  cases a <;> cases b <;> cases c <;> simp_all [torchLe, Flt.isNan, Flt.le]
  exact le_trans h1 h2

theorem torchLe_total (a b : Flt K) : (torchLe a b || torchLe b a) = true := by
  cases a <;> cases b <;> simp [torchLe, Flt.isNan, Flt.le]
  exact le_total _ _

theorem exampleSort_spec : TorchSort (exampleSort : Sorter (Flt K)) := by
  intro l
  refine ⟨⟨List.mergeSort_perm _ _, ?_⟩, ⟨List.mergeSort_perm _ _, ?_⟩⟩
  · have hs := List.pairwise_mergeSort (le := fun i j => if false then torchLe (l.getD j .nan) (l.getD i .nan) else torchLe (l.getD i .nan) (l.getD j .nan))
      (fun a b c h1 h2 => torchLe_trans _ _ _ h1 h2) (fun a b => torchLe_total _ _) (List.range l.length)
    refine List.Pairwise.imp ?_ hs
    intro i j hij x y hx hy
    simp only [Bool.false_eq_true, if_false, List.getD_eq_getElem?_getD, hx, hy, Option.getD_some, torchLe, Bool.or_eq_true] at hij
    exact hij
  · have hs := List.pairwise_mergeSort (le := fun i j => if true then torchLe (l.getD j .nan) (l.getD i .nan) else torchLe (l.getD i .nan) (l.getD j .nan))
      (fun a b c h1 h2 => torchLe_trans _ _ _ h2 h1) (fun a b => torchLe_total _ _) (List.range l.length)
    refine List.Pairwise.imp ?_ hs
    intro i j hij x y hx hy
    simp only [if_true, List.getD_eq_getElem?_getD, hx, hy, Option.getD_some, torchLe, Bool.or_eq_true] at hij
    exact hij

example : Worse .min (.nan : Flt ℚ) (.fin 3) ∧ Worse .min (.fin 4 : Flt ℚ) (.fin 3) ∧ Worse .max (.fin 2 : Flt ℚ) (.fin 3) ∧ Worse .max (.nan : Flt ℚ) .ninf := by
  refine ⟨⟨rfl, .inl rfl⟩, ⟨rfl, .inr (by decide +kernel)⟩, ⟨rfl, .inr (by decide +kernel)⟩, ⟨rfl, .inl rfl⟩⟩

/-- Two elites out of four samples, two of which are NaN. -/
example : ⌊(([fun _ => 1, fun _ => 2, fun _ => 3, fun _ => 4] : List (Distribution.Vec ℚ 1)).length : ℚ) * (1 / 2)⌋.toNat ≤ ([.fin 1, .nan, .nan, .fin 5] : List (Flt ℚ)).countP Flt.isNan := by decide +kernel

/-- Two parents, two children that are NaN. -/
example : ([1, 2] : List ℚ).length ≤ ((fun p : List ℚ => p.map (· - 5)) [1, 2]).countP fun v => ((fun v : ℚ => if v < 0 then (Flt.nan : Flt ℚ) else .fin v) v).isNan := by decide +kernel

end EvoTorch.NanSelection
