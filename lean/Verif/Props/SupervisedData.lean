import Verif.Model.SupervisedData
import Verif.Props.SupervisedNE
import Mathlib.Data.List.Basic
import Mathlib.Data.List.Perm.Basic
/-! Property C145: the data of a `SupervisedNE`. -/
namespace EvoTorch.SupervisedData
open EvoTorch
open EvoTorch.SupervisedNE

variable {T Y K : Type}

/-! ### Passes -/

theorem chunks_flatten (n : ℕ) (hn : 0 < n) : ∀ (fuel : ℕ) (l : List α), l.length ≤ fuel → (chunks n fuel l).flatten = l := by
  intro fuel
  induction fuel with
  | zero => intro l h; have : l = [] := List.length_eq_zero_iff.1 (by omega); subst this; rfl
  | succ fuel ih =>
    intro l h
    cases l with
    | nil => rfl
    | cons a l =>
      simp only [chunks, List.isEmpty_cons, Bool.false_eq_true, if_false, List.flatten_cons]
      rw [ih _ (by simp only [List.length_drop, List.length_cons] at h ⊢; omega), List.take_append_drop]

theorem chunks_length (n : ℕ) (hn : 0 < n) : ∀ (fuel : ℕ) (l : List α), l.length ≤ fuel → (chunks n fuel l).length = (l.length + n - 1) / n := by
  intro fuel
  induction fuel with
  | zero => intro l h; have : l = [] := List.length_eq_zero_iff.1 (by omega); subst this; simp only [chunks, List.length_nil]; exact (Nat.div_eq_of_lt (by omega)).symm
  | succ fuel ih =>
    intro l h
    cases l with
    | nil => simp only [chunks, List.isEmpty_nil, if_true, List.length_nil]; exact (Nat.div_eq_of_lt (by omega)).symm
    | cons a l =>
      simp only [chunks, List.isEmpty_cons, Bool.false_eq_true, if_false]
      rw [List.length_cons, ih _ (by simp only [List.length_drop, List.length_cons] at h ⊢; omega), List.length_drop]
      by_cases hle : n ≤ (a :: l).length
      · have : (a :: l).length + n - 1 = ((a :: l).length - n + n - 1) + n := by omega
        rw [this, Nat.add_div_right _ hn]
      · have h1 : (a :: l).length - n = 0 := by omega
        have h2 : (a :: l).length + n - 1 = ((a :: l).length - 1) + n := by simp only [List.length_cons]; omega
        rw [h1, h2, Nat.add_div_right _ hn, Nat.div_eq_of_lt (by omega), Nat.div_eq_of_lt (by simp only [List.length_cons] at hle ⊢; omega)]

/-- Minibatch `i` of a pass holds the elements from `i * n` on. -/
theorem chunks_getElem (n : ℕ) (hn : 0 < n) : ∀ (fuel : ℕ) (l : List α) (i : ℕ), l.length ≤ fuel → i < (l.length + n - 1) / n →
    (chunks n fuel l)[i]? = some ((l.drop (i * n)).take n) := by
  intro fuel
  induction fuel with
  | zero => intro l i h hi; have : l = [] := List.length_eq_zero_iff.1 (by omega); subst this; rw [List.length_nil, Nat.div_eq_of_lt (by omega)] at hi; omega
  | succ fuel ih =>
    intro l i h hi
    cases l with
    | nil => rw [List.length_nil, Nat.div_eq_of_lt (by omega)] at hi; omega
    | cons a l =>
      simp only [chunks, List.isEmpty_cons, Bool.false_eq_true, if_false]
      cases i with
      | zero => simp
      | succ i =>
        have hlen := chunks_length n hn (fuel + 1) (a :: l) h
        simp only [chunks, List.isEmpty_cons, Bool.false_eq_true, if_false, List.length_cons (as := chunks _ _ _)] at hlen
        rw [chunks_length n hn _ _ (by simp only [List.length_drop, List.length_cons] at h ⊢; omega)] at hlen
        rw [List.getElem?_cons_succ, ih _ i (by simp only [List.length_drop, List.length_cons] at h ⊢; omega) (by omega), List.drop_drop]
        congr 3
        rw [Nat.add_mul]; omega

/-- **C145.** With a minibatch size `n ≥ 1` and a data set which is not empty, the data are gone through in passes of `⌈N / n⌉` minibatches: whatever the shuffling, the minibatches requested in pass `k`
together hold every element of the data set exactly once; all of them but the last one have exactly `n` elements, and the last one has between `1` and `n`. -/
theorem C145_passes (s : Setup T Y K) (n : ℤ) (hs : s.minibatchSize = some n) (hn : 0 < n) (hd : s.dataset ≠ []) (shuffle : ℕ → List (Sample T)) (hp : ∀ k, (shuffle k).Perm s.dataset) :
    ∃ (passes : ℕ → List (List (Sample T))) (batch : ℕ → List (Sample T)) (L : ℕ), makeDataloader s shuffle = .ok passes ∧ 0 < L ∧
      (L - 1) * n.toNat < s.dataset.length ∧ s.dataset.length ≤ L * n.toNat ∧
      (∀ m, (getMinibatch passes (after passes m)).result = .ok (batch m)) ∧
      (∀ k, (((List.range L).map fun i => batch (k * L + i)).flatten).Perm s.dataset) ∧
      (∀ k i, i + 1 < L → (batch (k * L + i)).length = n.toNat) ∧
      (∀ k, (batch (k * L + (L - 1))).length = s.dataset.length - (L - 1) * n.toNat) := by
  obtain ⟨n', rfl⟩ : ∃ n' : ℕ, n = n' := ⟨n.toNat, by omega⟩
  have hn' : 0 < n' := by omega
  have hlen : 0 < s.dataset.length := List.length_pos_iff.2 hd
  have hempty : s.dataset.isEmpty = false := by simpa using hd
  have hL : 0 < (s.dataset.length + n' - 1) / n' := Nat.div_pos (by omega) hn'
  have hcount : ∀ k, (chunks n' (shuffle k).length (shuffle k)).length = (s.dataset.length + n' - 1) / n' := by
    intro k; rw [chunks_length n' hn' _ _ (le_refl _), (hp k).length_eq]
  have hne : ∀ k, chunks n' (shuffle k).length (shuffle k) ≠ [] := by
    intro k hk; have := hcount k; rw [hk] at this; simp only [List.length_nil] at this; omega
  obtain ⟨str, hstr⟩ := exists_stream (fun k => chunks n' (shuffle k).length (shuffle k)) hne
  have hpos := C66_pass_position (fun k => chunks n' (shuffle k).length (shuffle k)) _ hL hcount str hstr
  have hbatch : ∀ k i, i < (s.dataset.length + n' - 1) / n' → str (k * ((s.dataset.length + n' - 1) / n') + i) = ((shuffle k).drop (i * n')).take n' := by
    intro k i hi
    have h := (hpos (k * ((s.dataset.length + n' - 1) / n') + i)).1
    have h1 : (k * ((s.dataset.length + n' - 1) / n') + i) / ((s.dataset.length + n' - 1) / n') = k := by
      rw [Nat.mul_comm, Nat.mul_add_div hL, Nat.div_eq_of_lt hi, Nat.add_zero]
    have h2 : (k * ((s.dataset.length + n' - 1) / n') + i) % ((s.dataset.length + n' - 1) / n') = i := by
      rw [Nat.mul_comm, Nat.mul_add_mod, Nat.mod_eq_of_lt hi]
    rw [h1, h2] at h
    rw [chunks_getElem n' hn' _ _ i (le_refl _) (by rw [(hp k).length_eq]; exact hi)] at h
    exact (Option.some.inj h).symm
  have hlo : ((s.dataset.length + n' - 1) / n' - 1) * n' < s.dataset.length := by
    have h := Nat.div_mul_le_self (s.dataset.length + n' - 1) n'
    rw [Nat.sub_mul]; omega
  have hhi : s.dataset.length ≤ (s.dataset.length + n' - 1) / n' * n' := by
    have h := Nat.div_add_mod (s.dataset.length + n' - 1) n'
    have h2 := Nat.mod_lt (s.dataset.length + n' - 1) hn'
    rw [Nat.mul_comm] at h; omega
  refine ⟨fun k => chunks n' (shuffle k).length (shuffle k), str, (s.dataset.length + n' - 1) / n', ?_, hL, hlo, hhi, fun m => (hpos m).2, ?_, ?_, ?_⟩
  · unfold makeDataloader shuffledLoader
    rw [hs]
    simp only [hempty, Bool.false_eq_true, if_false, if_neg (show ¬ ((n' : ℤ) ≤ 0) by omega), Int.toNat_natCast]
  · intro k
    have : ((List.range ((s.dataset.length + n' - 1) / n')).map fun i => str (k * ((s.dataset.length + n' - 1) / n') + i)) = chunks n' (shuffle k).length (shuffle k) := by
      apply List.ext_getElem?
      intro i
      by_cases hi : i < (s.dataset.length + n' - 1) / n'
      · rw [chunks_getElem n' hn' _ _ i (le_refl _) (by rw [(hp k).length_eq]; exact hi), List.getElem?_map, List.getElem?_range hi, Option.map_some, hbatch k i hi]
      · rw [List.getElem?_eq_none (by simp; omega), List.getElem?_eq_none (by rw [hcount]; omega)]
    rw [this, chunks_flatten n' hn' _ _ (le_refl _)]
    exact hp k
  · intro k i hi
    rw [hbatch k i (by omega), List.length_take, List.length_drop, (hp k).length_eq, Int.toNat_natCast]
    have : (i + 1) * n' ≤ ((s.dataset.length + n' - 1) / n' - 1) * n' := Nat.mul_le_mul_right _ (by omega)
    rw [Nat.add_mul, Nat.one_mul] at this
    omega
  · intro k
    rw [hbatch k _ (by omega), List.length_take, List.length_drop, (hp k).length_eq]
    have h3 : (s.dataset.length + n' - 1) / n' * n' = ((s.dataset.length + n' - 1) / n' - 1) * n' + n' := by
      have := Nat.sub_add_cancel (show 1 ≤ (s.dataset.length + n' - 1) / n' by omega)
      rw [← Nat.succ_mul, Nat.succ_eq_add_one, this]
    simp only [Int.toNat_natCast] at *
    omega

/-- **C145.** Which data loader is used: with a minibatch size, always a shuffled one over the data set, which is refused (ValueError) exactly if the data set is empty or the size is not positive; without a
minibatch size, that of the method `_make_dataloader` of the subclass; if there is no such method, NotImplementedError. -/
theorem C145_loader (s : Setup T Y K) (shuffle : ℕ → List (Sample T)) :
    (s.minibatchSize = none → ∀ l, s.ownLoader = some l → makeDataloader s shuffle = .ok l) ∧
    (s.minibatchSize = none → s.ownLoader = none → makeDataloader s shuffle = .error .notImplementedError) ∧
    (∀ n, s.minibatchSize = some n → ((s.dataset = [] ∨ n ≤ 0) ↔ makeDataloader s shuffle = .error .valueError)) := by
  refine ⟨fun h l hl => by simp [makeDataloader, h, hl], fun h hl => by simp [makeDataloader, h, hl], ?_⟩
  intro n h
  unfold makeDataloader shuffledLoader
  rw [h]
  simp only
  by_cases h1 : s.dataset.isEmpty = true
  · rw [if_pos h1]; exact ⟨fun _ => rfl, fun _ => Or.inl (by simpa using h1)⟩
  · rw [if_neg h1]
    by_cases h2 : n ≤ 0
    · rw [if_pos h2]; exact ⟨fun _ => rfl, fun _ => Or.inr h2⟩
    · rw [if_neg h2]
      refine ⟨?_, fun hc => by cases hc⟩
      rintro (hc | hc)
      · exact absurd (by simpa using hc) h1
      · exact absurd hc h2

/-! ### Losses -/

theorem tuples_pairs (l : List (T × T)) : tuples 2 (l.map fun p => Sample.tuple [p.1, p.2]) = some (l.map fun p => [p.1, p.2]) := by
  induction l with
  | nil => rfl
  | cons p l ih => simp [tuples, ih]

theorem column_pairs (l : List (T × T)) : column (l.map fun p => [p.1, p.2]) 0 = l.map Prod.fst ∧ column (l.map fun p => [p.1, p.2]) 1 = l.map Prod.snd := by
  constructor
  · unfold column
    induction l with
    | nil => rfl
    | cons p l ih => rw [List.map_cons, List.map_cons, ← ih]; rfl
  · unfold column
    induction l with
    | nil => rfl
    | cons p l ih => rw [List.map_cons, List.map_cons, ← ih]; rfl

/-- **C145.** For a data set of pairs, the loss of a network on a minibatch is the loss function applied to the output of the network for the stacked first elements, and to the stacked second elements, in the
same order. The loss function is the argument `loss_func` if it was given, otherwise the method `_loss` of the subclass; without either, NotImplementedError. -/
theorem C145_loss (s : Setup T Y K) (network : Var T → Y) (l : List (T × T)) (hl : l ≠ []) :
    lossOf s network (l.map fun p => .tuple [p.1, p.2]) =
      match s.lossFunc, s.ownLoss with
      | some f, _ => .ok (f (network (.stacked (l.map Prod.fst))) (.stacked (l.map Prod.snd)))
      | none, some f => .ok (f (network (.stacked (l.map Prod.fst))) (.stacked (l.map Prod.snd)))
      | none, none => .error .notImplementedError := by
  have hc : collate (l.map fun p => Sample.tuple [p.1, p.2]) = .ok (.columns [l.map Prod.fst, l.map Prod.snd]) := by
    have h1 := tuples_pairs l
    obtain ⟨h2, h3⟩ := column_pairs l
    cases l with
    | nil => exact absurd rfl hl
    | cons p l =>
      simp only [List.map_cons] at h1 h2 h3 ⊢
      unfold collate
      simp only [List.length_cons, List.length_nil, Nat.zero_add, Nat.reduceAdd, h1]
      rw [show List.range 2 = [0, 1] from rfl]
      simp only [List.map_cons, List.map_nil, h2, h3]
  unfold lossOf
  rw [hc]
  show evaluateUsing s network [.stacked _, .stacked _] = _
  simp only [evaluateUsing, loss]
  cases s.lossFunc <;> cases s.ownLoss <;> rfl

theorem tuples_same (n : ℕ) : ∀ (l : List (List T)), (∀ r ∈ l, r.length = n) → tuples n (l.map Sample.tuple) = some l := by
  intro l
  induction l with
  | nil => intro _; rfl
  | cons r l ih =>
    intro h
    simp only [List.map_cons, tuples, if_pos (h r (by simp)), ih fun r' hr' => h r' (by simp [hr']), Option.map_some]

/-- **C145.** Tuples with another number of elements than two are refused with ValueError; dictionaries with AttributeError. -/
theorem C145_refused (s : Setup T Y K) (network : Var T → Y) (rows : List (List T)) (hr : rows ≠ []) (n : ℕ) (hn : ∀ r ∈ rows, r.length = n) (h2 : n ≠ 2) (rest : List (Sample T)) :
    lossOf s network (rows.map .tuple) = .error .valueError ∧ lossOf s network (.mapping :: rest) = .error .attributeError := by
  refine ⟨?_, rfl⟩
  have hc : collate (rows.map Sample.tuple) = .ok (.columns ((List.range n).map (column rows))) := by
    have h1 := tuples_same n rows hn
    cases rows with
    | nil => exact absurd rfl hr
    | cons r rows =>
      have hrn := hn r (by simp)
      subst hrn
      simp only [List.map_cons] at h1 ⊢
      unfold collate
      simp only [h1]
  unfold lossOf
  rw [hc]
  show evaluateUsing s network (((List.range n).map (column rows)).map .stacked) = _
  have hlen : (((List.range n).map (column rows)).map (Var.stacked)).length = n := by simp
  match hm : ((List.range n).map (column rows)).map Var.stacked with
  | [] => rfl
  | [_] => rfl
  | [_, _] => rw [hm] at hlen; exact absurd hlen.symm h2
  | _ :: _ :: _ :: _ => rfl

theorem bares_map (l : List T) : bares (l.map Sample.bare) = some l := by
  induction l with
  | nil => rfl
  | cons t l ih => simp [bares, ih]

/-- **C145 violated.** A data set of tensors (inputs without outputs) is refused with ValueError, unless a minibatch happens to have two elements: then the first data point is silently taken as the input, and
the second one as the desired output. -/
theorem C145_violated_unpaired (s : Setup T Y K) (network : Var T → Y) (f : Y → Var T → K) (hf : s.lossFunc = some f) (l : List T) (hl : l ≠ []) :
    (l.length ≠ 2 → lossOf s network (l.map .bare) = .error .valueError) ∧
    (∀ a b, l = [a, b] → lossOf s network (l.map .bare) = .ok (f (network (.row a)) (.row b))) := by
  have hc : lossOf s network (l.map .bare) = evaluateUsing s network (l.map .row) := by
    have h1 := bares_map l
    cases l with
    | nil => exact absurd rfl hl
    | cons t l =>
      simp only [List.map_cons] at h1 ⊢
      unfold lossOf collate
      simp only [h1]
      rfl
  rw [hc]
  constructor
  · intro h
    match l, h with
    | [], _ => rfl
    | [_], _ => rfl
    | [_, _], h => exact absurd rfl h
    | _ :: _ :: _ :: _, _ => rfl
  · rintro a b rfl
    simp [evaluateUsing, loss, hf]

/-! ### Non-vacuity -/

def exSetup : Setup ℕ ℕ ℕ := ⟨[.tuple [1, 10], .tuple [2, 20], .tuple [3, 30]], some 2, none, some fun a y => a + (match y with | .stacked l => l.sum | .row t => t), none⟩

example : exSetup.minibatchSize = some 2 ∧ (0 : ℤ) < 2 ∧ exSetup.dataset ≠ [] ∧ exSetup.dataset.reverse.Perm exSetup.dataset := ⟨rfl, by decide, by decide, List.reverse_perm _⟩
example : (makeDataloader exSetup fun _ => exSetup.dataset.reverse).toOption.map (· 0) = some [[.tuple [3, 30], .tuple [2, 20]], [.tuple [1, 10]]] := rfl
example : lossOf exSetup (fun x => match x with | .stacked l => l.length | .row _ => 0) [.tuple [1, 10], .tuple [2, 20]] = .ok 32 := rfl

end EvoTorch.SupervisedData
