import Verif.Model.Layers
import Std.Data.String.ToNat
import Mathlib.Algebra.Order.Floor.Ring
import Mathlib.Algebra.Order.Ring.Rat
import Mathlib.Data.Rat.Floor
import Mathlib.Data.List.Basic
import Mathlib.Data.List.Forall2
import Mathlib.Tactic.Linarith
import Mathlib.Tactic.FieldSimp
import Mathlib.Tactic.Ring
/-! Properties C88-C91: the built-in layers and networks. -/
namespace EvoTorch.Layers
open EvoTorch
variable {K : Type}

/-! ### C88: elementwise layers -/

section ordered
variable [Field K] [LinearOrder K] [IsStrictOrderedRing K]

/-- **C88.** `Clip(lb, ub)` gives the value of `[lb, ub]` nearest to its input. -/
theorem C88_clip (lb ub x : K) (h : lb ≤ ub) : lb ≤ clip lb ub x ∧ clip lb ub x ≤ ub ∧ ∀ y, lb ≤ y → y ≤ ub → |clip lb ub x - x| ≤ |y - x| := by
  unfold clip
  refine ⟨le_min (le_max_right _ _) h, min_le_right _ _, ?_⟩
  intro y h1 h2
  rcases le_total x lb with hx | hx
  · rw [max_eq_right hx, min_eq_left h, abs_of_nonneg (by linarith), abs_of_nonneg (by linarith)]; linarith
  · rw [max_eq_left hx]
    rcases le_total x ub with hu | hu
    · rw [min_eq_left hu]; simp
    · rw [min_eq_right hu, abs_of_nonpos (by linarith), abs_of_nonpos (by linarith)]; linarith

example : clip (-1 : ℚ) 1 3 = 1 := by decide +kernel

/-- **C88.** `Bin(lb, ub)` (with two different bounds, in either order) turns a value closer to `lb` into `lb` and a value closer to `ub` into `ub`; the midpoint stays. -/
theorem C88_bin (lb ub x : K) (h : lb ≠ ub) :
    (|x - lb| < |x - ub| → bin lb ub x = lb) ∧ (|x - ub| < |x - lb| → bin lb ub x = ub) ∧ (|x - lb| = |x - ub| → bin lb ub x = (lb + ub) / 2) := by
  have hs : (ub - lb) / 2 ≠ 0 := by
    intro h0
    apply h
    have : ub - lb = 0 := by
      have := congrArg (· * 2) h0
      simpa using this
    linarith [sub_eq_zero.1 this]
  -- the sign of the scaled value
  have hlo : |x - lb| < |x - ub| → (x - (ub + lb) / 2) / ((ub - lb) / 2) < 0 := by
    intro hc
    rw [← sq_lt_sq] at hc
    have : (x - (ub + lb) / 2) * ((ub - lb) / 2) < 0 := by nlinarith
    exact (div_neg_iff).2 (by
      rcases lt_or_gt_of_ne hs with hn | hp
      · left; exact ⟨by nlinarith, hn⟩
      · right; exact ⟨by nlinarith, hp⟩)
  have hhi : |x - ub| < |x - lb| → 0 < (x - (ub + lb) / 2) / ((ub - lb) / 2) := by
    intro hc
    rw [← sq_lt_sq] at hc
    have : 0 < (x - (ub + lb) / 2) * ((ub - lb) / 2) := by nlinarith
    exact (div_pos_iff).2 (by
      rcases lt_or_gt_of_ne hs with hn | hp
      · right; exact ⟨by nlinarith, hn⟩
      · left; exact ⟨by nlinarith, hp⟩)
  refine ⟨?_, ?_, ?_⟩
  · intro hc
    simp only [bin, sign, if_pos (hlo hc)]; ring
  · intro hc
    simp only [bin, sign, if_neg (not_lt.2 (le_of_lt (hhi hc))), if_pos (hhi hc)]; ring
  · intro hc
    have : x - (ub + lb) / 2 = 0 := by
      rw [← sq_eq_sq_iff_abs_eq_abs] at hc
      have h2 : (x - (ub + lb) / 2) * ((ub - lb) / 2) = 0 := by nlinarith
      rcases mul_eq_zero.1 h2 with h3 | h3
      · exact h3
      · exact absurd h3 hs
    simp only [bin, this, zero_div, sign, lt_irrefl, if_false]; ring

example : bin (2 : ℚ) (-2) (-1) = -2 ∧ |(-1 : ℚ) - (-2)| < |(-1 : ℚ) - 2| := by decide +kernel

/-- **C88.** `Round(ndigits)` gives a multiple of `10^(-ndigits)` which is at most half a unit away; of two equally near ones, the one with the even last digit. -/
theorem C88_round [FloorRing K] (ndigits : ℤ) (x : K) :
    ∃ z : ℤ, round ndigits x = z / (10 : K) ^ ndigits ∧ |round ndigits x - x| ≤ 1 / 2 / (10 : K) ^ ndigits ∧
      (|round ndigits x - x| = 1 / 2 / (10 : K) ^ ndigits → z % 2 = 0) := by
  have hq : (0 : K) < (10 : K) ^ ndigits := zpow_pos (by norm_num) _
  refine ⟨roundEven (x * (10 : K) ^ ndigits), rfl, ?_⟩
  have key : ∀ y : K, |(roundEven y : K) - y| ≤ 1 / 2 ∧ (|(roundEven y : K) - y| = 1 / 2 → roundEven y % 2 = 0) := by
    intro y
    have h1 := Int.floor_le y
    have h2 := Int.lt_floor_add_one y
    unfold roundEven
    simp only []
    split_ifs with ha hb hc
    · rw [abs_of_nonpos (by linarith)]
      exact ⟨by linarith, fun h => by exfalso; linarith⟩
    · push_cast
      rw [abs_of_nonneg (by linarith)]
      exact ⟨by linarith, fun h => by exfalso; linarith⟩
    · have he : y - ⌊y⌋ = 1 / 2 := le_antisymm (not_lt.1 hb) (not_lt.1 ha)
      rw [abs_of_nonpos (by linarith)]
      exact ⟨by linarith, fun _ => hc⟩
    · have he : y - ⌊y⌋ = 1 / 2 := le_antisymm (not_lt.1 hb) (not_lt.1 ha)
      push_cast
      rw [abs_of_nonneg (by linarith)]
      exact ⟨by linarith, fun _ => by omega⟩
  obtain ⟨k1, k2⟩ := key (x * (10 : K) ^ ndigits)
  have he : |round ndigits x - x| = |(roundEven (x * (10 : K) ^ ndigits) : K) - x * (10 : K) ^ ndigits| / (10 : K) ^ ndigits := by
    have : round ndigits x - x = ((roundEven (x * (10 : K) ^ ndigits) : K) - x * (10 : K) ^ ndigits) / (10 : K) ^ ndigits := by
      unfold round; field_simp
    rw [this, abs_div, abs_of_pos hq]
  rw [he]
  exact ⟨div_le_div_of_nonneg_right k1 (le_of_lt hq), fun h => k2 (by rwa [div_left_inj' (ne_of_gt hq)] at h)⟩

example : round 1 (1 / 4 : ℚ) = 1 / 5 ∧ round 0 (5 / 2 : ℚ) = 2 := by decide +kernel

end ordered

/-- **C88.** `Slice(a, b)` takes the items from `a` up to and excluding `b`; negative bounds count from the end. -/
theorem C88_slice {α : Type} (x : List α) (a b : ℕ) (hab : a ≤ b) (hb : b ≤ x.length) :
    slice a b x = (x.drop a).take (b - a) ∧ (b < x.length → slice (a - x.length) (b - x.length) x = (x.drop a).take (b - a)) ∧ slice a (b + x.length) x = x.drop a := by
  have e1 : sliceBound x.length (a : ℤ) = a := by unfold sliceBound; rw [if_neg (by omega)]; omega
  have e2 : sliceBound x.length (b : ℤ) = b := by unfold sliceBound; rw [if_neg (by omega)]; omega
  have e3 : sliceBound x.length ((b : ℤ) + x.length) = x.length := by unfold sliceBound; rw [if_neg (by omega)]; omega
  refine ⟨?_, ?_, ?_⟩
  · unfold slice; rw [e1, e2, List.drop_take]
  · intro hlt
    have f1 : sliceBound x.length ((a : ℤ) - x.length) = a := by unfold sliceBound; rw [if_pos (by omega)]; omega
    have f2 : sliceBound x.length ((b : ℤ) - x.length) = b := by unfold sliceBound; rw [if_pos (by omega)]; omega
    unfold slice; rw [f1, f2, List.drop_take]
  · unfold slice; rw [e1, e3, List.take_length]

example : slice (-3) (-1) [10, 11, 12, 13, 14] = [12, 13] := by decide

/-- Position `p` of a list of `n` items is not before the bound `a` (a negative bound counts from the end). -/
def FromOn (n : ℕ) (a : ℤ) (p : ℕ) : Prop := if 0 ≤ a then a ≤ p else a + n ≤ p

instance (n : ℕ) (a : ℤ) (p : ℕ) : Decidable (FromOn n a p) := by unfold FromOn; infer_instance

theorem drop_take_positions {α : Type} (x : List α) : ∀ l h : ℕ,
    (x.take h).drop l = (List.range x.length).filterMap fun p => if l ≤ p ∧ p < h then x[p]? else none := by
  induction x with
  | nil => simp
  | cons y ys ih =>
    intro l h
    have step : ∀ (g : ℕ → Option α) n, (List.range (n + 1)).filterMap g = (match g 0 with | none => [] | some v => [v]) ++ (List.range n).filterMap (fun p => g (p + 1)) := by
      intro g n
      rw [List.range_succ_eq_map, List.filterMap_cons, List.filterMap_map]
      cases hg : g 0 <;> simp [hg, Function.comp_def]
    rw [List.length_cons, step]
    cases h with
    | zero => simp
    | succ h =>
      cases l with
      | zero =>
        have := ih 0 h
        simp only [List.drop_zero] at this ⊢
        simp [this]
      | succ l =>
        simp [ih l h]

/-- **C88.** `Slice(a, b)`, for all integers `a` and `b`, gives the items at the positions from `a` on which are before `b`, in order. -/
theorem C88_slice_all {α : Type} (x : List α) (a b : ℤ) :
    slice a b x = (List.range x.length).filterMap fun p => if FromOn x.length a p ∧ ¬ FromOn x.length b p then x[p]? else none := by
  unfold slice
  rw [drop_take_positions]
  apply List.filterMap_congr
  intro p hp
  have hp' : p < x.length := List.mem_range.1 hp
  have h1 : sliceBound x.length a ≤ p ↔ FromOn x.length a p := by
    unfold sliceBound FromOn; split <;> split <;> omega
  have h2 : p < sliceBound x.length b ↔ ¬ FromOn x.length b p := by
    unfold sliceBound FromOn; split <;> split <;> omega
  simp only [h1, h2]

example : slice 3 1 [10, 11, 12, 13, 14] = [] ∧ slice (-9) 2 [10, 11, 12, 13, 14] = [10, 11] ∧ slice 3 (-1) [10, 11, 12, 13, 14] = [13] ∧ FromOn 5 (-2) 3 := by decide

/-- **C88.** `Apply(op, a)` computes `x op a`; other operators are refused at construction. -/
theorem C88_apply [Field K] (pow : K → K → K) (a x : K) :
    apply pow "+" a x = .ok (x + a) ∧ apply pow "-" a x = .ok (x - a) ∧ apply pow "*" a x = .ok (x * a) ∧ apply pow "/" a x = .ok (x / a) ∧ apply pow "**" a x = .ok (pow x a) ∧
      ∀ op, op ∉ ["+", "-", "*", "/", "**"] → apply pow op a x = .error .assertionError := by
  refine ⟨by simp [apply], by simp [apply], by simp [apply], by simp [apply], by simp [apply], ?_⟩
  intro op h
  unfold apply; rw [if_neg h]

/-! ### C89: recurrent layers -/

/-- Feeding a sequence to a recurrent layer, each time with the hidden state it returned before. -/
def unroll {X Y H : Type} (cell : X → Option H → Y × H) : Option H → List X → List Y
  | _, [] => []
  | h, x :: xs => (cell x h).1 :: unroll cell (some (cell x h).2) xs

section nets
variable [Field K] {n m : ℕ}

/-- The Elman recurrence from the zero state: `y₀ = 0`, `y_{t+1} = act(W1 x_t + b1 + W2 y_t + b2)`. -/
def elman (act : K → K) (p : RnnParams K n m) (xs : ℕ → Fin n → K) : ℕ → Fin m → K
  | 0 => fun _ => 0
  | t + 1 => fun i => act ((∑ j, p.W1 i j * xs t j) + p.b1 i + (∑ k, p.W2 i k * elman act p xs t k) + p.b2 i)

/-- **C89.** An `RNN` started without a hidden state gives the Elman recurrence for every input sequence. -/
theorem C89_rnn (act : K → K) (p : RnnParams K n m) (xs : ℕ → Fin n → K) (len t : ℕ) (ht : t < len) :
    (unroll (rnn act p) none ((List.range len).map xs))[t]? = some (elman act p xs (t + 1)) := by
  have key : ∀ (k s : ℕ) (h : Option (Fin m → K)), h.getD (fun _ => 0) = elman act p xs s → ∀ t, t < k →
      (unroll (rnn act p) h ((List.range' s k).map xs))[t]? = some (elman act p xs (s + t + 1)) := by
    intro k
    induction k with
    | zero => intro s h _ t ht; omega
    | succ k ih =>
      intro s h hh t ht
      have hc : (rnn act p (xs s) h).1 = elman act p xs (s + 1) ∧ (rnn act p (xs s) h).2 = elman act p xs (s + 1) := by
        simp only [rnn, hh, elman, matVec, and_self]
        funext i
        congr 1
        ring
      rw [List.range'_succ, List.map_cons]
      simp only [unroll]
      cases t with
      | zero => rw [List.getElem?_cons_zero, hc.1]
      | succ t =>
        rw [List.getElem?_cons_succ, ih (s + 1) _ (by simpa using hc.2) t (by omega)]
        congr 2; omega
  have := key len 0 none rfl t ht
  rw [Nat.zero_add] at this
  rw [List.range_eq_range', this]

/-- The LSTM recurrence from the zero state: the pair (hidden, cell). -/
def lstmSpec (sigm tanh : K → K) (p : LstmParams K n m) (xs : ℕ → Fin n → K) : ℕ → (Fin m → K) × (Fin m → K)
  | 0 => (fun _ => 0, fun _ => 0)
  | t + 1 =>
    let h := (lstmSpec sigm tanh p xs t).1
    let c := (lstmSpec sigm tanh p xs t).2
    let gate (s : K → K) (W : Fin m → Fin n → K) (b : Fin m → K) (U : Fin m → Fin m → K) (d : Fin m → K) : Fin m → K :=
      fun k => s ((∑ j, W k j * xs t j) + b k + (∑ j, U k j * h j) + d k)
    let c' := fun k => gate sigm p.Wif p.b_if p.Whf p.b_hf k * c k + gate sigm p.Wii p.b_ii p.Whi p.b_hi k * gate tanh p.Wig p.b_ig p.Whg p.b_hg k
    (fun k => gate sigm p.Wio p.b_io p.Who p.b_ho k * tanh (c' k), c')

/-- **C89.** An `LSTM` started without a hidden state gives the LSTM recurrence for every input sequence. -/
theorem C89_lstm (sigm tanh : K → K) (p : LstmParams K n m) (xs : ℕ → Fin n → K) (len t : ℕ) (ht : t < len) :
    (unroll (lstm sigm tanh p) none ((List.range len).map xs))[t]? = some (lstmSpec sigm tanh p xs (t + 1)).1 := by
  have key : ∀ (k s : ℕ) (h : Option ((Fin m → K) × (Fin m → K))), (h.map Prod.fst).getD (fun _ => 0) = (lstmSpec sigm tanh p xs s).1 →
      (h.map Prod.snd).getD (fun _ => 0) = (lstmSpec sigm tanh p xs s).2 → ∀ t, t < k →
      (unroll (lstm sigm tanh p) h ((List.range' s k).map xs))[t]? = some (lstmSpec sigm tanh p xs (s + t + 1)).1 := by
    intro k
    induction k with
    | zero => intro s h _ _ t ht; omega
    | succ k ih =>
      intro s h h1 h2 t ht
      have hc : lstm sigm tanh p (xs s) h = ((lstmSpec sigm tanh p xs (s + 1)).1, lstmSpec sigm tanh p xs (s + 1)) := by
        simp only [lstm, h1, h2, lstmSpec, matVec]
      rw [List.range'_succ, List.map_cons]
      simp only [unroll, hc]
      cases t with
      | zero => rw [List.getElem?_cons_zero]
      | succ t =>
        rw [List.getElem?_cons_succ, ih (s + 1) _ rfl rfl t (by omega)]
        congr 4; omega
  have := key len 0 none rfl rfl t ht
  rw [Nat.zero_add] at this
  rw [List.range_eq_range', this]

/-- **C89.** With gates in `[0, 1]` and `tanh` in `[-1, 1]`, the hidden state of an `LSTM` stays in `[-1, 1]` and its cell state after `t` inputs in `[-t, t]`, for every input sequence. -/
theorem C89_lstm_bounded [LinearOrder K] [IsStrictOrderedRing K] (sigm tanh : K → K) (hs : ∀ x, 0 ≤ sigm x ∧ sigm x ≤ 1) (ht : ∀ x, |tanh x| ≤ 1) (p : LstmParams K n m) (xs : ℕ → Fin n → K) (t : ℕ) (k : Fin m) :
    |(lstmSpec sigm tanh p xs t).1 k| ≤ 1 ∧ |(lstmSpec sigm tanh p xs t).2 k| ≤ t := by
  have hmul : ∀ a b c : K, 0 ≤ a ∧ a ≤ 1 → |b| ≤ c → |a * b| ≤ c := by
    intro a b c ha hb
    rw [abs_mul, abs_of_nonneg ha.1]
    calc a * |b| ≤ 1 * |b| := mul_le_mul_of_nonneg_right ha.2 (abs_nonneg b)
      _ = |b| := one_mul _
      _ ≤ c := hb
  induction t with
  | zero => simp [lstmSpec]
  | succ t ih =>
    simp only [lstmSpec]
    refine ⟨hmul _ _ _ (hs _) (ht _), ?_⟩
    refine le_trans (abs_add_le _ _) ?_
    push_cast
    exact add_le_add (hmul _ _ _ (hs _) ih.2) (hmul _ _ _ (hs _) (ht _))

end nets

/-- A clipped-linear sigmoid and tanh meet the hypotheses. -/
example : (∀ x : ℚ, 0 ≤ clip 0 1 x ∧ clip 0 1 x ≤ 1) ∧ ∀ x : ℚ, |clip (-1) 1 x| ≤ 1 := by
  refine ⟨fun x => ⟨(C88_clip 0 1 x (by norm_num)).1, (C88_clip 0 1 x (by norm_num)).2.1⟩, fun x => ?_⟩
  have := C88_clip (-1) 1 x (by norm_num)
  exact abs_le.2 ⟨this.1, this.2.1⟩

/-! ### C90: feed-forward networks -/

variable {V : Type}

/-- A layer after unpacking: size, activation (None: nothing), bias. -/
structure Layer (V : Type) where
  size : ℕ
  act : Option (V → V)
  bias : Bool

/-- An activation as given stands for a function: None for nothing, a callable for itself, one of seven names for the module of that name. -/
inductive Means (lib : String → V → V) : Act V → Option (V → V) → Prop
  | none : Means lib .none none
  | callable (f : V → V) : Means lib (.callable f) (some f)
  | name (s : String) (h : s ∈ ["relu", "selu", "elu", "tanh", "hardtanh", "sigmoid", "round"]) : Means lib (.name s) (some (lib s))

/-- A layer tuple stands for a layer: the bias is True unless given. -/
inductive Describes (lib : String → V → V) : LayerTuple V → Layer V → Prop
  | plain (s : ℕ) (a : Act V) (f : Option (V → V)) (h : Means lib a f) : Describes lib (.two s a) ⟨s, f, true⟩
  | full (s : ℕ) (a : Act V) (f : Option (V → V)) (b : Bool) (h : Means lib a f) : Describes lib (.three s a b) ⟨s, f, b⟩

/-- The input passes through the layers in order: the linear layer number `i`, then its activation. -/
def through (linear : ℕ → V → V) : ℕ → List (Layer V) → V → V
  | _, [], x => x
  | i, d :: ds, x => through linear (i + 1) ds (d.act.getD id (linear i x))

theorem means_resolve (lib : String → V → V) (a : Act V) (f : Option (V → V)) (h : Means lib a f) : resolveAct lib a = .ok f := by
  cases h with
  | none => rfl
  | callable f => rfl
  | name s h => exact if_pos h

theorem layer_inj {i j : ℕ} (h : "layer_" ++ toString i = "layer_" ++ toString j) : i = j :=
  Nat.repr_injective ((String.append_right_inj _).1 h)

theorem act_inj {i j : ℕ} (h : "actfunc_" ++ toString i = "actfunc_" ++ toString j) : i = j :=
  Nat.repr_injective ((String.append_right_inj _).1 h)

theorem layer_ne_act (i j : ℕ) : "layer_" ++ toString i ≠ "actfunc_" ++ toString j := by
  intro h
  have := congrArg (fun s => s.toList.head?) h
  simp [String.toList_append] at this

theorem buildLoop_ok (lib : String → V → V) : ∀ (ls : List (LayerTuple V)) (ds : List (Layer V)) (i n : ℕ) (attrs : String → Option (Attr V)), List.Forall₂ (Describes lib) ls ds →
    ∃ attrs', buildLoop lib i n ls attrs = .ok attrs' ∧ (∀ j, j < i → attrs' ("layer_" ++ toString j) = attrs ("layer_" ++ toString j) ∧ attrs' ("actfunc_" ++ toString j) = attrs ("actfunc_" ++ toString j)) ∧
      (∀ j d, ds[j]? = some d → attrs' ("layer_" ++ toString (i + j)) = some (.linear (((n :: ds.map Layer.size)[j]?).getD 0) d.size d.bias) ∧ attrs' ("actfunc_" ++ toString (i + j)) = some (.act d.act)) ∧
      ∀ j, i + ds.length ≤ j → attrs' ("layer_" ++ toString j) = attrs ("layer_" ++ toString j) := by
  intro ls
  induction ls with
  | nil =>
    intro ds i n attrs h
    cases h
    exact ⟨attrs, rfl, fun _ _ => ⟨rfl, rfl⟩, by simp, fun _ _ => rfl⟩
  | cons l ls ih =>
    intro ds i n attrs h
    cases h with
    | @cons _ d _ ds hd ht =>
      have hstep : ∃ a, l.unpack = .ok (d.size, a, d.bias) ∧ resolveAct lib a = .ok d.act := by
        cases hd with
        | plain s a f h => exact ⟨a, rfl, means_resolve _ _ _ h⟩
        | full s a f b h => exact ⟨a, rfl, means_resolve _ _ _ h⟩
      obtain ⟨a, hu, hr⟩ := hstep
      obtain ⟨attrs', h1, h2, h3, h4⟩ := ih ds (i + 1) d.size
        (setAttr (setAttr attrs ("layer_" ++ toString i) (.linear n d.size d.bias)) ("actfunc_" ++ toString i) (.act d.act)) ht
      have hl : ∀ j, setAttr (setAttr attrs ("layer_" ++ toString i) (.linear n d.size d.bias)) ("actfunc_" ++ toString i) (.act d.act) ("layer_" ++ toString j) =
          if j = i then some (.linear n d.size d.bias) else attrs ("layer_" ++ toString j) := by
        intro j
        simp only [setAttr, if_neg (layer_ne_act j i)]
        by_cases hj : j = i
        · subst hj; rw [if_pos rfl, if_pos rfl]
        · rw [if_neg hj, if_neg fun h => hj (layer_inj h)]
      have ha : ∀ j, setAttr (setAttr attrs ("layer_" ++ toString i) (.linear n d.size d.bias)) ("actfunc_" ++ toString i) (.act d.act) ("actfunc_" ++ toString j) =
          if j = i then some (.act d.act) else attrs ("actfunc_" ++ toString j) := by
        intro j
        simp only [setAttr]
        by_cases hj : j = i
        · subst hj; rw [if_pos rfl, if_pos rfl]
        · rw [if_neg hj, if_neg fun h => hj (act_inj h), if_neg fun h => layer_ne_act i j h.symm]
      refine ⟨attrs', ?_, ?_, ?_, ?_⟩
      · simp only [buildLoop, hu, hr, Except.bind]; exact h1
      · intro j hj
        obtain ⟨a1, a2⟩ := h2 j (by omega)
        rw [a1, a2, hl, ha, if_neg (by omega), if_neg (by omega)]
        exact ⟨rfl, rfl⟩
      · intro j d' hj
        cases j with
        | zero =>
          simp only [List.getElem?_cons_zero, Option.some.injEq] at hj
          subst hj
          obtain ⟨a1, a2⟩ := h2 i (by omega)
          rw [Nat.add_zero, a1, a2, hl, ha, if_pos rfl, if_pos rfl]
          exact ⟨rfl, rfl⟩
        | succ j =>
          rw [List.getElem?_cons_succ] at hj
          obtain ⟨a1, a2⟩ := h3 j d' hj
          have e : i + (j + 1) = i + 1 + j := by omega
          rw [e, a1, a2]
          refine ⟨?_, rfl⟩
          simp
      · intro j hj
        simp only [List.length_cons] at hj
        rw [h4 j (by omega), hl, if_neg (by omega)]

/-- **C90.** `FeedForwardNet(input_size, layers)` has one linear layer per tuple, from the size of the previous layer (or the input size) to its own, with bias unless stated otherwise; its output is the input passed through
the layers and activations in order, for every number of layers and every parameters. -/
theorem C90_feed_forward (lib : String → V → V) (inputSize : ℕ) (ls : List (LayerTuple V)) (ds : List (Layer V)) (h : List.Forall₂ (Describes lib) ls ds) :
    ∃ attrs, feedForward lib inputSize ls = .ok attrs ∧
      (∀ (j : ℕ) (d : Layer V), ds[j]? = some d → attrs ("layer_" ++ toString j) = some (.linear (((inputSize :: ds.map Layer.size)[j]?).getD 0) d.size d.bias)) ∧
      (∀ j, ds.length ≤ j → attrs ("layer_" ++ toString j) = none) ∧
      ∀ linear x fuel, ds.length < fuel → forwardLoop attrs linear fuel 0 x = some (through linear 0 ds x) := by
  obtain ⟨attrs, h1, _, h3, h4⟩ := buildLoop_ok lib ls ds 0 inputSize (fun _ => none) h
  simp only [Nat.zero_add] at h3 h4
  refine ⟨attrs, h1, fun j d hj => (h3 j d hj).1, h4, ?_⟩
  intro linear x fuel hfuel
  have key : ∀ (ds' : List (Layer V)) (i : ℕ) (x : V) (fuel : ℕ), ds' = ds.drop i → ds'.length < fuel → forwardLoop attrs linear fuel i x = some (through linear i ds' x) := by
    intro ds'
    induction ds' with
    | nil =>
      intro i x fuel he hf
      cases fuel with
      | zero => omega
      | succ fuel =>
        have : ds.length ≤ i := List.drop_eq_nil_iff.1 he.symm
        simp only [forwardLoop, h4 i this, through]
        rfl
    | cons d ds' ih =>
      intro i x fuel he hf
      cases fuel with
      | zero => simp at hf
      | succ fuel =>
        have hi : ds[i]? = some d := by
          have := congrArg List.head? he
          simpa using this.symm
        have ht : ds' = ds.drop (i + 1) := by
          have := congrArg List.tail he
          simpa using this
        obtain ⟨a1, a2⟩ := h3 i d hi
        simp only [forwardLoop, a1, a2, Option.isSome_some, if_true, through]
        have hx : (match some (Attr.act d.act) with
            | some (.act (some f)) => f (linear i x)
            | _ => linear i x) = d.act.getD id (linear i x) := by
          cases d.act <;> rfl
        simp only [List.length_cons] at hf
        rw [← hx]
        exact ih (i + 1) _ fuel ht (by omega)
  exact key ds 0 x fuel rfl hfuel

/-- **C90.** A tuple of another length raises AssertionError, an unknown activation name ValueError. -/
theorem C90_refused (lib : String → V → V) (inputSize : ℕ) (pre post : List (LayerTuple V)) (ds : List (Layer V)) (h : List.Forall₂ (Describes lib) pre ds) :
    feedForward lib inputSize (pre ++ .invalid :: post) = .error .assertionError ∧
    ∀ s name, name ∉ ["relu", "selu", "elu", "tanh", "hardtanh", "sigmoid", "round"] → feedForward lib inputSize (pre ++ .two s (.name name) :: post) = .error .valueError := by
  unfold feedForward
  generalize (0 : ℕ) = i
  generalize (fun _ => none : String → Option (Attr V)) = attrs
  induction h generalizing i inputSize attrs with
  | nil =>
    refine ⟨rfl, fun s name hn => ?_⟩
    have : resolveAct lib (.name name) = .error .valueError := if_neg hn
    simp [buildLoop, LayerTuple.unpack, Except.bind, this]
  | @cons l d ls ds hd _ ih =>
    have hstep : ∃ a, l.unpack = .ok (d.size, a, d.bias) ∧ resolveAct lib a = .ok d.act := by
      cases hd with
      | plain s a f h => exact ⟨a, rfl, means_resolve _ _ _ h⟩
      | full s a f b h => exact ⟨a, rfl, means_resolve _ _ _ h⟩
    obtain ⟨a, hu, hr⟩ := hstep
    simp only [List.cons_append, buildLoop, hu, hr, Except.bind]
    exact ⟨(ih _ _ _).1, fun s name hn => (ih _ _ _).2 s name hn⟩

/-- **C90.** A `StructuredControlNet` adds a linear component and a feed-forward component with `num_layers` hidden layers and one output layer. -/
theorem C90_structured_control [Add V] (lib : String → V → V) (inF out hidden numLayers : ℕ) (a : Act V) (f : Option (V → V)) (ha : Means lib a f) :
    ∃ attrs, feedForward lib inF (scnLayers numLayers hidden out a) = .ok attrs ∧
      attrs ("layer_" ++ toString numLayers) = some (.linear (if numLayers = 0 then inF else hidden) out true) ∧ attrs ("layer_" ++ toString (numLayers + 1)) = none ∧
      (∀ j, j < numLayers → attrs ("layer_" ++ toString j) = some (.linear (if j = 0 then inF else hidden) hidden true)) ∧
      ∀ linear comp x, scnForward comp (fun x => (forwardLoop attrs linear (numLayers + 2) 0 x).getD x) x =
        comp x + through linear 0 (List.replicate numLayers ⟨hidden, f, true⟩ ++ [⟨out, f, true⟩]) x := by
  have hd : List.Forall₂ (Describes lib) (scnLayers numLayers hidden out a) (List.replicate numLayers ⟨hidden, f, true⟩ ++ [⟨out, f, true⟩]) := by
    unfold scnLayers
    refine List.rel_append (R := Describes lib) ?_ (.cons (.plain _ _ _ ha) .nil)
    induction numLayers with
    | zero => exact .nil
    | succ n ih => exact .cons (.plain _ _ _ ha) ih
  obtain ⟨attrs, h1, h2, h3, h4⟩ := C90_feed_forward lib inF _ _ hd
  have hsz : ∀ j, j ≤ numLayers → ((inF :: (List.replicate numLayers (⟨hidden, f, true⟩ : Layer V) ++ [(⟨out, f, true⟩ : Layer V)]).map Layer.size)[j]?).getD 0 = if j = 0 then inF else hidden := by
    intro j hj
    cases j with
    | zero => rfl
    | succ j =>
      rw [List.getElem?_cons_succ, List.getElem?_map, List.getElem?_append_left (by simp; omega)]
      simp [show j < numLayers by omega]
  refine ⟨attrs, h1, ?_, h3 _ (by simp), ?_, ?_⟩
  · have := h2 numLayers ⟨out, f, true⟩ (by simp)
    rw [this, hsz numLayers (Nat.le_refl _)]
  · intro j hj
    have := h2 j ⟨hidden, f, true⟩ (by rw [List.getElem?_append_left (by simp; omega)]; simp [hj])
    rw [this, hsz j (by omega)]
  · intro linear comp x
    simp only [scnForward]
    rw [h4 linear x (numLayers + 2) (by simp)]
    rfl

example (lib : String → ℕ → ℕ) : List.Forall₂ (Describes lib) [.two 8 (.name "tanh"), .three 2 .none false] [⟨8, some (lib "tanh"), true⟩, ⟨2, none, false⟩] :=
  .cons (.plain _ _ _ (.name _ (by decide))) (.cons (.full _ _ _ _ .none) .nil)

/-! ### C91: LocomotorNet -/

/-- The number of forward passes since the last reset (or since construction). -/
def sinceReset {X : Type} : List (LocoOp X) → ℕ
  | [] => 0
  | ops => (ops.reverse.takeWhile fun op => match op with | .forward _ => true | .reset => false).length

/-- **C91.** In every history, a forward pass of a `LocomotorNet` gives the linear component plus the sum of the sinusoids at time `t`, where `t` is the number of forward passes since the last reset or since construction. -/
theorem C91_locomotor {X : Type} {m : ℕ} [Field K] (sin : K → K) (linear : X → Fin m → K) (sinusoids : List ((Fin m → K) × (Fin m → K) × (Fin m → K))) (pre : List (LocoOp X)) (x : X) :
    (locoRun sin linear sinusoids 0 (pre ++ [.forward x])).2.getLast? =
      some (some fun k => linear x k + (sinusoids.map fun s => s.1 k * sin (s.2.1 k * (sinceReset pre : K) + s.2.2 k)).sum) := by
  have hfold : ∀ (l : List ((Fin m → K) × (Fin m → K) × (Fin m → K))) (t : ℕ) (u : Fin m → K) (k : Fin m),
      l.foldl (fun (u : Fin m → K) s => fun k => u k + s.1 k * sin (s.2.1 k * t + s.2.2 k)) u k = u k + (l.map fun s => s.1 k * sin (s.2.1 k * (t : K) + s.2.2 k)).sum := by
    intro l t
    induction l with
    | nil => intro u k; simp
    | cons s l ih => intro u k; rw [List.foldl_cons, ih]; simp [add_assoc]
  have happ : ∀ (ops ops' : List (LocoOp X)) (t : ℕ), locoRun sin linear sinusoids t (ops ++ ops') =
      ((locoRun sin linear sinusoids (locoRun sin linear sinusoids t ops).1 ops').1, (locoRun sin linear sinusoids t ops).2 ++ (locoRun sin linear sinusoids (locoRun sin linear sinusoids t ops).1 ops').2) := by
    intro ops
    induction ops with
    | nil => intro ops' t; simp [locoRun]
    | cons op ops ih => intro ops' t; simp [locoRun, ih]
  have hsr : ∀ l : List (LocoOp X), sinceReset l = (l.reverse.takeWhile fun op => match op with | .forward _ => true | .reset => false).length := by
    intro l; cases l <;> rfl
  have ht : ∀ l : List (LocoOp X), (locoRun sin linear sinusoids 0 l).1 = sinceReset l := by
    intro l
    induction l using List.reverseRecOn with
    | nil => rfl
    | append_singleton l op ih =>
      rw [happ, hsr, List.reverse_append]
      cases op with
      | forward y => simp [locoRun, locoStep, ih, hsr]
      | reset => simp [locoRun, locoStep]
  rw [happ, ht]
  simp only [locoRun, locoStep]
  rw [List.getLast?_append]
  simp [hfold]

example : sinceReset [LocoOp.forward 1, .reset, .forward 2, .forward 3] = 2 := by decide

end EvoTorch.Layers
