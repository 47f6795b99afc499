import Verif.Model.GridArgs
import Mathlib.Data.Rat.Defs
import Mathlib.Algebra.Field.Rat
import Mathlib.Algebra.Order.Ring.Rat
/-!
C142: which arguments make a grid for MAP-Elites, and how features are compared with its cells.
-/
namespace EvoTorch.GridArgs
open EvoTorch EvoTorch.MapElites

variable {K : Type}

/-- C142: bounds that are tensors (or, if a dtype or a device is given, anything tensors can be made from) of one dimension, of the same size, and, unless they are given, of the same dtype and device are accepted, and the grid then has one
feature per bound, in order, if there is one number of bins for all, or one for each. -/
theorem C142_accepted_partial (l u : Tensor K) (hl : l.shape = [l.vals.length]) (hu : u.shape = [u.vals.length]) (hlen : l.vals.length = u.vals.length) (bins : Bins)
    (hb : ∀ b, bins = .each b → b.length = l.vals.length) (dtype device : Option String) (lower upper : Arg K)
    (hlo : lower = .tensor l ∨ (lower = .other l ∧ l.device = "cpu")) (hup : upper = .tensor u ∨ (upper = .other u ∧ u.device = "cpu"))
    (h : (lower = .tensor l ∧ upper = .tensor u) ∨ dtype ≠ none ∨ device ≠ none) (hd : dtype = none → l.dtype = u.dtype) (hv : device = none → l.device = u.device) :
    ∃ fs, features lower upper bins dtype device = .ok fs ∧ fs.length = l.vals.length ∧
      ∀ i (hi : i < l.vals.length), fs[i]? = some (l.vals[i], u.vals[i]'(by omega), match bins with
        | .all n => n
        | .each b => b.getD i 0) := by
  have hexp : ∀ n, n = l.vals.length → (bins.expand n).length = n := by
    intro n hn
    cases bins with
    | all k => simp [Bins.expand]
    | each b => rw [hn]; exact hb b rfl
  have hfs : features lower upper bins dtype device = .ok (l.vals.zip (u.vals.zip (bins.expand l.vals.length))) := by
    by_cases hn : dtype = none ∧ device = none
    · obtain ⟨rfl, rfl⟩ := hn
      obtain ⟨rfl, rfl⟩ : lower = .tensor l ∧ upper = .tensor u := by simpa using h
      have hc : check l u = .ok () := by
        unfold check
        rw [if_neg (by simp [hv rfl]), if_neg (by simp [hd rfl]), if_neg (by simp [hl, hu, hlen]), if_neg (by simp [hl])]
      simp only [features, tensors, Option.isSome_none, Bool.or_self, Bool.false_eq_true, if_false]
      simp only [bind, Except.bind, hc]
    · have c1 : lower.cast dtype device = { l with dtype := dtype.getD l.dtype, device := device.getD l.device } := by
        rcases hlo with rfl | ⟨rfl, he⟩
        · rfl
        · simp [Arg.cast, he]
      have c2 : upper.cast dtype device = { u with dtype := dtype.getD u.dtype, device := device.getD u.device } := by
        rcases hup with rfl | ⟨rfl, he⟩
        · rfl
        · simp [Arg.cast, he]
      have e1 : device.getD l.device = device.getD u.device := by cases device <;> simp_all
      have e2 : dtype.getD l.dtype = dtype.getD u.dtype := by cases dtype <;> simp_all
      have hc : check ({ l with dtype := dtype.getD l.dtype, device := device.getD l.device } : Tensor K) { u with dtype := dtype.getD u.dtype, device := device.getD u.device } = .ok () := by
        unfold check
        rw [if_neg (by simp [e1]), if_neg (by simp [e2]), if_neg (by simp [hl, hu, hlen]), if_neg (by simp [hl])]
      have hs : (dtype.isSome || device.isSome) = true := by
        cases dtype <;> cases device <;> simp_all
      simp only [features, tensors, hs, if_true, c1, c2]
      simp only [bind, Except.bind, hc]
  refine ⟨_, hfs, ?_, ?_⟩
  · simp only [List.length_zip, hexp _ rfl]; omega
  · intro i hi
    have he := hexp _ rfl
    rw [List.getElem?_eq_getElem (by simp only [List.length_zip, he]; omega)]
    simp only [List.getElem_zip, Option.some.injEq, Prod.mk.injEq, true_and]
    cases bins with
    | all n => simp [Bins.expand]
    | each b =>
      have := hb b rfl
      simp only [Bins.expand, List.getD_eq_getElem?_getD]
      rw [List.getElem?_eq_getElem (by omega)]
      rfl

/-- C142: without a dtype and a device, bounds that are not both tensors are a TypeError; bounds on different devices, with different dtypes, of different shapes or not of one dimension are a ValueError. -/
theorem C142_refused (lower upper : Arg K) (l u : Tensor K) (bins : Bins) :
    (((∃ t, lower = .other t) ∨ ∃ t, upper = .other t) → features lower upper bins none none = .error .typeError) ∧
    ((l.device ≠ u.device ∨ l.dtype ≠ u.dtype ∨ l.shape ≠ u.shape ∨ l.shape.length ≠ 1) → features (.tensor l) (.tensor u) bins none none = .error .valueError) := by
  constructor
  · intro h
    rcases h with ⟨t, rfl⟩ | ⟨t, rfl⟩
    · rfl
    · cases lower <;> rfl
  · intro h
    have hc : check l u = .error .valueError := by
      unfold check
      split
      · rfl
      split
      · rfl
      split
      · rfl
      split
      · rfl
      rename_i h1 h2 h3 h4
      rcases h with h | h | h | h
      · exact absurd h h1
      · exact absurd h h2
      · exact absurd h h3
      · exact absurd h h4
    simp only [features, tensors, Option.isSome_none, Bool.or_self, Bool.false_eq_true, if_false]
    simp only [bind, Except.bind, hc]

/-- C142: if a solution has as many features as the grid, it fits a cell if and only if each of its features is within its bounds. -/
theorem C142_fits_partial [LinearOrder K] (cell : Cell K) (feats : List (Flt K)) (h : cell.length = feats.length) (fit : Flt K) :
    fits cell feats = .ok (suitable cell (some ⟨fit, feats⟩)) ∧
    (fits cell feats = .ok true ↔ ∀ i (hi : i < feats.length), Flt.le (cell[i]'(by omega)).1 feats[i] = true ∧ Flt.le feats[i] (cell[i]'(by omega)).2 = true) := by
  have hf : fits cell feats = .ok ((cell.zip feats).all fun bf => Flt.le bf.1.1 bf.2 && Flt.le bf.2 bf.1.2) := by
    simp only [fits, align, if_pos h]
    rfl
  refine ⟨hf, ?_⟩
  rw [hf]
  simp only [Except.ok.injEq, List.all_eq_true, Bool.and_eq_true]
  constructor
  · intro ha i hi
    exact ha (cell[i]'(by omega), feats[i]) (List.mem_iff_getElem.2 ⟨i, by simp; omega, by simp⟩)
  · intro ha bf hbf
    obtain ⟨i, hi, rfl⟩ := List.mem_iff_getElem.1 hbf
    simp only [List.getElem_zip]
    exact ha i (by simp at hi; omega)

/-- C142: otherwise, if neither number is one, evaluating the grid fails. -/
theorem C142_mismatch_refused [LinearOrder K] (cell : Cell K) (feats : List (Flt K)) (h : cell.length ≠ feats.length) (h1 : cell.length ≠ 1) (h2 : feats.length ≠ 1) :
    fits cell feats = .error .runtimeError := by
  have ha : align cell feats = .error .runtimeError := by
    unfold align
    rw [if_neg h]
    match cell, feats, h1, h2 with
    | [], [], _, _ => rfl
    | [], a :: b :: l, _, _ => rfl
    | a :: b :: l, [], _, _ => rfl
    | a :: b :: l, c :: d :: m, _, _ => rfl
  simp only [fits, ha]
  rfl

/-- Two lower bounds. -/
def exLow : Tensor ℚ := ⟨[2], [0, 10], "float32", "cpu"⟩

/-- Two upper bounds. -/
def exUp : Tensor ℚ := ⟨[2], [1, 20], "float32", "cpu"⟩

/-- C142 fails: a vector of numbers of bins that does not have one number per feature is not refused: the features without a number are silently left out of the grid, and superfluous numbers are ignored. -/
theorem C142_violated_bins (l u : Tensor K) (hl : l.shape = [l.vals.length]) (hu : u.shape = [u.vals.length]) (hlen : l.vals.length = u.vals.length) (hd : l.dtype = u.dtype) (hv : l.device = u.device)
    (b : List ℕ) :
    (∃ fs, features (.tensor l) (.tensor u) (.each b) none none = .ok fs ∧ fs.length = min l.vals.length b.length) ∧
    (∃ cells, grid (.tensor exLow) (.tensor exUp) (.each [3]) none none = .ok cells ∧ ∀ cell ∈ cells, cell.length = 1) := by
  constructor
  · have hc : check l u = .ok () := by
      unfold check
      rw [if_neg (by simp [hv]), if_neg (by simp [hd]), if_neg (by simp [hl, hu, hlen]), if_neg (by simp [hl])]
    refine ⟨l.vals.zip (u.vals.zip b), ?_, by simp only [List.length_zip]; omega⟩
    simp only [features, tensors, Option.isSome_none, Bool.or_self, Bool.false_eq_true, if_false, Bins.expand]
    simp only [bind, Except.bind, hc]
  · refine ⟨_, rfl, ?_⟩
    decide +kernel

/-- C142 fails: a grid for another number of features than the solutions have is not refused if one of the numbers is one. All the features are then compared with the same bounds, or the only feature with
all the bounds. -/
theorem C142_violated_mismatch [LinearOrder K] (c : Flt K × Flt K) (feats : List (Flt K)) (h : feats.length ≠ 1) (cell : Cell K) (f : Flt K) (hc : cell.length ≠ 1) :
    fits [c] feats = .ok (feats.all fun x => Flt.le c.1 x && Flt.le x c.2) ∧ fits cell [f] = .ok (cell.all fun b => Flt.le b.1 f && Flt.le f b.2) := by
  constructor
  · have ha : align [c] feats = .ok (feats.map fun f => (c, f)) := by
      unfold align
      rw [if_neg (by simpa using fun hh => h hh.symm)]
      match feats, h with
      | [], _ => rfl
      | a :: b :: l, _ => rfl
    simp only [fits, ha, Except.map, List.all_map, Function.comp_def]
  · have ha : align cell [f] = .ok (cell.map fun c => (c, f)) := by
      unfold align
      rw [if_neg (by simpa using hc)]
    simp only [fits, ha, Except.map, List.all_map, Function.comp_def]

example : ∃ cells, grid (.tensor exLow) (.tensor exUp) (.all 3) none none = .ok cells ∧ cells.length = 9 := ⟨_, rfl, by decide +kernel⟩
example : fits [((Flt.fin (0 : ℚ)), Flt.fin 1), (Flt.fin 1, Flt.pinf)] [Flt.fin 1, Flt.fin 5] = .ok true := rfl

end EvoTorch.GridArgs
