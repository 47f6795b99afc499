import Verif.Props.Optimizers
import Mathlib.Algebra.Order.Chebyshev
import Mathlib.Algebra.Field.GeomSum
import Mathlib.Tactic.Positivity
/-!
C154: what the optimisers do over long runs. Stated for the functional optimisers; the classes visit the same centers (C53).
-/
namespace EvoTorch.Optimizers
variable {d : Nat}

/-! ### ClipUp -/

theorem norm_add_le' (x y : Fin d → ℝ) : norm (fun j => x j + y j) ≤ norm x + norm y := by
  have hx := norm_nonneg' x
  have hy := norm_nonneg' y
  have sx : norm x ^ 2 = ∑ j, x j ^ 2 := Real.sq_sqrt (Finset.sum_nonneg fun _ _ => sq_nonneg _)
  have sy : norm y ^ 2 = ∑ j, y j ^ 2 := Real.sq_sqrt (Finset.sum_nonneg fun _ _ => sq_nonneg _)
  have hc : (∑ j, x j * y j) ^ 2 ≤ (norm x * norm y) ^ 2 := by
    rw [mul_pow, sx, sy]; exact Finset.sum_mul_sq_le_sq_mul_sq _ _ _
  have hc' : ∑ j, x j * y j ≤ norm x * norm y := (le_abs_self _).trans (abs_le_of_sq_le_sq hc (mul_nonneg hx hy))
  refine (Real.sqrt_le_left (add_nonneg hx hy)).2 ?_
  have : ∑ j, (x j + y j) ^ 2 = ∑ j, x j ^ 2 + 2 * ∑ j, x j * y j + ∑ j, y j ^ 2 := by
    rw [Finset.mul_sum, ← Finset.sum_add_distrib, ← Finset.sum_add_distrib]
    exact Finset.sum_congr rfl fun j _ => by ring
  rw [this, ← sx, ← sy]
  nlinarith

/-- **C154 (ClipUp, distance).** After any number of non-zero gradients, of whatever sizes, the center is at most `max_speed` times that
number away from where it started. -/
theorem C154_clipup_distance (x0 : Fin d → ℝ) (momentum : ℝ) (lr maxSpeed : Option ℝ) (s : ClipUpState d)
    (hs : clipup x0 momentum lr maxSpeed = .ok s) (hm : 0 ≤ s.maxSpeed) (gs : List (Fin d → ℝ)) (hg : ∀ g ∈ gs, ∃ j, g j ≠ 0) :
    ∃ x, (gs.foldl clipupTell s).center = some x ∧ norm (fun j => x j - x0 j) ≤ gs.length * s.maxSpeed := by
  have h0 : s.center = some x0 ∧ ∃ v, s.velocity = some v := by
    unfold clipup at hs
    split at hs
    · cases hs
    all_goals (injection hs with hs; subst hs; exact ⟨rfl, _, rfl⟩)
  have key : ∀ (gs : List (Fin d → ℝ)) (s : ClipUpState d) (y : Fin d → ℝ), 0 ≤ s.maxSpeed → s.center = some y → (∃ v, s.velocity = some v) →
      (∀ g ∈ gs, ∃ j, g j ≠ 0) →
      ∃ x, (gs.foldl clipupTell s).center = some x ∧ norm (fun j => x j - y j) ≤ gs.length * s.maxSpeed := by
    intro gs
    induction gs with
    | nil =>
      intro s y _ hc _ _
      exact ⟨y, hc, by simp [norm]⟩
    | cons g gs ih =>
      intro s y hm hc hv hg
      obtain ⟨x, x', v, e1, e2, e3, e4, e5, e6⟩ := tell_ok hm hv ⟨y, hc⟩ (hg g (by simp))
      rw [hc] at e1
      injection e1 with e1
      subst e1
      obtain ⟨z, hz, hn⟩ := ih (clipupTell s g) x' (by rw [e6]; exact hm) e2 ⟨v, e3⟩ (fun g' h => hg g' (by simp [h]))
      refine ⟨z, hz, ?_⟩
      have h1 : (fun j => z j - y j) = fun j => (z j - x' j) + v j := by funext j; rw [e5]; ring
      rw [h1]
      refine (norm_add_le' _ _).trans ?_
      rw [e6] at hn
      push_cast [List.length_cons]
      linarith
  exact key gs s x0 hm h0.1 h0.2 hg

theorem normalize_scale {c : ℝ} (hc : 0 < c) (g : Fin d → ℝ) : normalize (fun j => c * g j) = normalize g := by
  unfold normalize
  rw [norm_smul', abs_of_pos hc]
  by_cases h : norm g = 0
  · rw [if_pos h, if_pos (by rw [h, mul_zero])]
  · rw [if_neg h, if_neg (mul_ne_zero hc.ne' h)]
    congr 1; funext j
    rw [mul_div_mul_left _ _ hc.ne']

/-- **C154 (ClipUp, directions).** Only the directions of the gradients matter: multiplying each by its own positive number changes nothing. -/
theorem C154_clipup_directions (s : ClipUpState d) (gs : List ((Fin d → ℝ) × ℝ)) (hc : ∀ p ∈ gs, 0 < p.2) :
    (gs.map fun p => fun j => p.2 * p.1 j).foldl clipupTell s = (gs.map (·.1)).foldl clipupTell s := by
  induction gs generalizing s with
  | nil => rfl
  | cons p gs ih =>
    simp only [List.map_cons, List.foldl_cons]
    have : clipupTell s (fun j => p.2 * p.1 j) = clipupTell s p.1 := by
      unfold clipupTell
      rw [normalize_scale (hc p (by simp))]
    rw [this]
    exact ih _ fun q hq => hc q (by simp [hq])

/-- The speed after `n` steps in one direction: momentum times the speed plus the step size, limited. -/
noncomputable def speed (lr m maxSpeed : ℝ) : Nat → ℝ
  | 0 => 0
  | n + 1 => min maxSpeed (m * speed lr m maxSpeed n + lr)

theorem speed_nonneg {lr m M : ℝ} (hl : 0 ≤ lr) (hm : 0 ≤ m) (hM : 0 ≤ M) (n : Nat) : 0 ≤ speed lr m M n := by
  induction n with
  | zero => exact le_rfl
  | succ n ih => exact le_min hM (by positivity)

theorem speed_le {lr m M : ℝ} (hM : 0 ≤ M) (n : Nat) : speed lr m M n ≤ M := by
  cases n with
  | zero => exact hM
  | succ n => exact min_le_left _ _

theorem norm_unit_smul {u : Fin d → ℝ} (hu : norm u = 1) {a : ℝ} (ha : 0 ≤ a) : norm (fun j => a * u j) = a := by
  rw [norm_smul', hu, abs_of_nonneg ha, mul_one]

/-- **C154 (ClipUp, one direction).** Gradients in one direction `u`, of any positive sizes: the center moves along `u`, in the `n`-th step
by `speed n`. The speeds never decrease, never exceed `max_speed`, and if the step size is larger than `(1 - momentum) * max_speed` (as it is
for the default settings) they are `max_speed` from some step on. -/
theorem C154_clipup_one_direction (x0 : Fin d → ℝ) (momentum : ℝ) (lr maxSpeed : Option ℝ) (s : ClipUpState d)
    (hs : clipup x0 momentum lr maxSpeed = .ok s) (hM : 0 ≤ s.maxSpeed) (hl : 0 ≤ s.lr) (hm0 : 0 ≤ momentum) (hm1 : momentum ≤ 1)
    (u : Fin d → ℝ) (hu : norm u = 1) :
    (∀ cs : List ℝ, (∀ c ∈ cs, 0 < c) → ((cs.map fun c => fun j => c * u j).foldl clipupTell s).center =
      some fun j => x0 j + (∑ i ∈ Finset.range cs.length, speed s.lr momentum s.maxSpeed (i + 1)) * u j) ∧
    (∀ n, speed s.lr momentum s.maxSpeed n ≤ speed s.lr momentum s.maxSpeed (n + 1) ∧ speed s.lr momentum s.maxSpeed n ≤ s.maxSpeed) ∧
    ((1 - momentum) * s.maxSpeed < s.lr → ∃ N, ∀ n, N ≤ n → speed s.lr momentum s.maxSpeed n = s.maxSpeed) := by
  have h0 : s.center = some x0 ∧ s.velocity = some (fun _ => 0) ∧ s.momentum = momentum := by
    unfold clipup at hs
    split at hs
    · cases hs
    all_goals (injection hs with hs; subst hs; exact ⟨rfl, rfl, rfl⟩)
  have hmono : ∀ n, speed s.lr momentum s.maxSpeed n ≤ speed s.lr momentum s.maxSpeed (n + 1) := by
    intro n
    induction n with
    | zero => exact speed_nonneg hl hm0 hM 1
    | succ n ih => exact min_le_min le_rfl (by nlinarith)
  refine ⟨?_, fun n => ⟨hmono n, speed_le hM n⟩, ?_⟩
  · have hun : normalize u = some u := by
      unfold normalize
      rw [if_neg (by rw [hu]; exact one_ne_zero)]
      congr 1; funext j; rw [hu, div_one]
    have key : ∀ (cs : List ℝ), (∀ c ∈ cs, 0 < c) → ∀ (k : Nat) (t : ClipUpState d) (y : Fin d → ℝ), t.center = some y → t.lr = s.lr →
        t.maxSpeed = s.maxSpeed → t.momentum = momentum → t.velocity = some (fun j => speed s.lr momentum s.maxSpeed k * u j) →
        ((cs.map fun c => fun j => c * u j).foldl clipupTell t).center =
          some fun j => y j + (∑ i ∈ Finset.range cs.length, speed s.lr momentum s.maxSpeed (k + i + 1)) * u j := by
      intro cs
      induction cs with
      | nil => intro _ k t y hy _ _ _ _; simp [hy]
      | cons c cs ih =>
        intro hc k t y hy e1 e2 e3 e4
        have hvel : (clipupTell t (fun j => c * u j)).velocity = some fun j => speed s.lr momentum s.maxSpeed (k + 1) * u j := by
          simp only [clipupTell, normalize_scale (hc c (by simp)), hun, Option.map_some, e4, addScaled, e1, e2, e3, clipF_eq_clip _ hM]
          have hv : (fun j => momentum * (speed s.lr momentum s.maxSpeed k * u j) + s.lr * u j) =
              fun j => (momentum * speed s.lr momentum s.maxSpeed k + s.lr) * u j := by funext j; ring
          have ha : 0 ≤ momentum * speed s.lr momentum s.maxSpeed k + s.lr := by
            have := speed_nonneg hl hm0 hM k; positivity
          rw [hv]
          unfold clip
          simp only [norm_unit_smul hu ha]
          split
          · rename_i h
            congr 1; funext j
            have : momentum * speed s.lr momentum s.maxSpeed k + s.lr ≠ 0 := (lt_of_le_of_lt hM h).ne'
            show _ = min s.maxSpeed (momentum * speed s.lr momentum s.maxSpeed k + s.lr) * u j
            rw [min_eq_left h.le]
            field_simp
          · rename_i h
            congr 1; funext j
            show _ = min s.maxSpeed (momentum * speed s.lr momentum s.maxSpeed k + s.lr) * u j
            rw [min_eq_right (not_lt.mp h)]
        have hcen : (clipupTell t (fun j => c * u j)).center = some fun j => y j + speed s.lr momentum s.maxSpeed (k + 1) * u j := by
          have : (clipupTell t (fun j => c * u j)).center = addVec t.center (clipupTell t (fun j => c * u j)).velocity := rfl
          rw [this, hvel, hy]; rfl
        rw [List.map_cons, List.foldl_cons, ih (fun c' h => hc c' (by simp [h])) (k + 1) _ _ hcen e1 e2 e3 hvel]
        congr 1; funext j
        rw [List.length_cons, Finset.sum_range_succ', add_zero]
        have : ∀ i, k + 1 + i + 1 = k + (i + 1) + 1 := fun i => by omega
        simp only [this]
        ring
    intro cs hc
    have := key cs hc 0 s x0 h0.1 rfl rfl h0.2.2 (by rw [h0.2.1]; simp [speed])
    simpa using this
  · intro hlr
    set δ := s.lr - (1 - momentum) * s.maxSpeed with hδ
    have hδp : 0 < δ := by linarith
    have hgrow : ∀ n : Nat, min s.maxSpeed (n * δ) ≤ speed s.lr momentum s.maxSpeed n := by
      intro n
      induction n with
      | zero => simp [speed, hM]
      | succ n ih =>
        refine le_min (min_le_left _ _) ?_
        have hle := speed_le (lr := s.lr) (m := momentum) hM n
        have h1 : speed s.lr momentum s.maxSpeed n + δ ≤ momentum * speed s.lr momentum s.maxSpeed n + s.lr := by nlinarith
        refine le_trans ?_ h1
        push_cast
        rcases le_total s.maxSpeed (n * δ) with h | h
        · rw [min_eq_left h] at ih
          exact (min_le_left _ _).trans (by linarith)
        · rw [min_eq_right h] at ih
          exact (min_le_right _ _).trans (by linarith)
    obtain ⟨N, hN⟩ := exists_nat_gt (s.maxSpeed / δ)
    refine ⟨N, fun n hn => le_antisymm (speed_le hM n) ?_⟩
    have : s.maxSpeed ≤ n * δ := by
      rw [div_lt_iff₀ hδp] at hN
      have : (N : ℝ) ≤ n := by exact_mod_cast hn
      nlinarith
    calc s.maxSpeed = min s.maxSpeed (n * δ) := (min_eq_left this).symm
      _ ≤ _ := hgrow n

/-- The default settings: momentum 0.9 and a maximum speed of twice the step size. -/
example : ∃ s, clipup (![1, 2] : Fin 2 → ℝ) (9/10) (some 1) none = .ok s ∧ (1 - 9/10) * s.maxSpeed < s.lr :=
  ⟨_, rfl, by norm_num⟩

/-! ### SGD -/

/-- **C154 (SGD).** With a constant gradient and a momentum `m` other than 1, the `n`-th step is `lr * (1 - m^n) / (1 - m)` times the
gradient: it tends to `1 / (1 - m)` times the plain step. -/
theorem C154_sgd_constant (x0 : Fin d → ℝ) (lr m : ℝ) (hm : m ≠ 1) (g : Fin d → ℝ) (n : Nat) :
    ∀ j, ((List.replicate (n + 1) g).foldl sgdTell (sgd x0 lr (some m))).center j -
      ((List.replicate n g).foldl sgdTell (sgd x0 lr (some m))).center j = lr * ((1 - m ^ (n + 1)) / (1 - m)) * g j := by
  have h1 : 1 - m ≠ 0 := sub_ne_zero.mpr (Ne.symm hm)
  have key : ∀ n, (∀ j, ((List.replicate n g).foldl sgdTell (sgd x0 lr (some m))).velocity j = lr * ((1 - m ^ n) / (1 - m)) * g j) ∧
      ((List.replicate n g).foldl sgdTell (sgd x0 lr (some m))).momentum = m ∧
      ((List.replicate n g).foldl sgdTell (sgd x0 lr (some m))).lr = lr := by
    intro n
    induction n with
    | zero => simp [sgd]
    | succ n ih =>
      rw [List.replicate_succ', List.foldl_append]
      simp only [List.foldl_cons, List.foldl_nil, sgdTell]
      refine ⟨fun j => ?_, ih.2.1, ih.2.2⟩
      rw [ih.1, ih.2.1, ih.2.2]
      field_simp
      ring
  intro j
  obtain ⟨k1, k2, k3⟩ := key n
  rw [List.replicate_succ', List.foldl_append]
  simp only [List.foldl_cons, List.foldl_nil, sgdTell]
  rw [k1, k2, k3]
  field_simp
  ring

/-! ### Adam -/

/-- The settings of Adam that make sense. -/
def AdamOk (s : AdamState d) : Prop := 0 ≤ s.beta1 ∧ s.beta1 < 1 ∧ 0 ≤ s.beta2 ∧ s.beta2 < 1 ∧ 0 < s.eps

/-- **C154 (Adam, constant gradient).** With a constant gradient, each step is `lr * g / (|g| + eps)`, exactly, from the first step on: the
bias corrections are right. -/
theorem C154_adam_constant (x0 : Fin d → ℝ) (lr b1 b2 eps : Option ℝ) (hok : AdamOk (adam x0 lr b1 b2 eps)) (g : Fin d → ℝ) (n : Nat) (j : Fin d) :
    ((List.replicate n g).foldl adamTell (adam x0 lr b1 b2 eps)).center j =
      x0 j + n * ((adam x0 lr b1 b2 eps).lr * (g j / (|g j| + (adam x0 lr b1 b2 eps).eps))) := by
  set s0 := adam x0 lr b1 b2 eps with hs0
  obtain ⟨hb1, hb1', hb2, hb2', he⟩ := hok
  have key : ∀ n, let s := (List.replicate n g).foldl adamTell s0
      s.beta1 = s0.beta1 ∧ s.beta2 = s0.beta2 ∧ s.eps = s0.eps ∧ s.lr = s0.lr ∧ s.t = n ∧
      (∀ j, s.m j = (1 - s0.beta1 ^ n) * g j) ∧ (∀ j, s.v j = (1 - s0.beta2 ^ n) * g j ^ 2) ∧
      ∀ j, s.center j = x0 j + n * (s0.lr * (g j / (|g j| + s0.eps))) := by
    intro n
    induction n with
    | zero => simp [hs0, adam]
    | succ n ih =>
      obtain ⟨i1, i2, i3, i4, i5, i6, i7, i8⟩ := ih
      rw [List.replicate_succ', List.foldl_append]
      simp only [List.foldl_cons, List.foldl_nil, adamTell]
      rw [i1, i2, i3, i4, i5]
      have c1 : 1 - s0.beta1 ^ (n + 1) ≠ 0 := (sub_pos.mpr (pow_lt_one₀ hb1 hb1' (Nat.succ_ne_zero n))).ne'
      have c2 : 1 - s0.beta2 ^ (n + 1) ≠ 0 := (sub_pos.mpr (pow_lt_one₀ hb2 hb2' (Nat.succ_ne_zero n))).ne'
      have hmj : ∀ j, s0.beta1 * ((List.replicate n g).foldl adamTell s0).m j + (1 - s0.beta1) * g j = (1 - s0.beta1 ^ (n + 1)) * g j := by
        intro j; rw [i6]; ring
      have hvj : ∀ j, s0.beta2 * ((List.replicate n g).foldl adamTell s0).v j + (1 - s0.beta2) * g j ^ 2 = (1 - s0.beta2 ^ (n + 1)) * g j ^ 2 := by
        intro j; rw [i7]; ring
      refine ⟨rfl, rfl, rfl, rfl, rfl, hmj, hvj, fun j => ?_⟩
      rw [hmj, hvj, mul_div_cancel_left₀ _ c1, mul_div_cancel_left₀ _ c2, Real.sqrt_sq_eq_abs, i8]
      push_cast
      ring
  exact (key n).2.2.2.2.2.2.2 j

theorem cauchy_two {p q a b c e : ℝ} (ha : 0 ≤ a) (hb : 0 ≤ b) (hc : 0 ≤ c) (he : 0 ≤ e) (hp : p ^ 2 ≤ a * c) (hq : q ^ 2 ≤ b * e) :
    (p + q) ^ 2 ≤ (a + b) * (c + e) := by
  have h : 2 * (p * q) ≤ a * e + b * c := by
    refine (le_abs_self _).trans (abs_le_of_sq_le_sq ?_ (by positivity))
    have h1 : p ^ 2 * q ^ 2 ≤ (a * c) * (b * e) := mul_le_mul hp hq (sq_nonneg q) (mul_nonneg ha hc)
    nlinarith [sq_nonneg (a * e - b * c)]
  nlinarith

/-- One step of the averages: Cauchy's inequality. -/
theorem averages_step {b1 b2 A m v g : ℝ} (hb2 : 0 < b2) (hb2' : b2 < 1) (hA : 0 ≤ A) (hv : 0 ≤ v) (h : m ^ 2 ≤ A * v) :
    (b1 * m + (1 - b1) * g) ^ 2 ≤ (b1 ^ 2 / b2 * A + (1 - b1) ^ 2 / (1 - b2)) * (b2 * v + (1 - b2) * g ^ 2) := by
  have h2 : 0 < 1 - b2 := by linarith
  refine cauchy_two (by positivity) (by positivity) (by positivity) (by positivity) ?_ ?_
  · calc (b1 * m) ^ 2 = b1 ^ 2 * m ^ 2 := by ring
      _ ≤ b1 ^ 2 * (A * v) := by gcongr
      _ = b1 ^ 2 / b2 * A * (b2 * v) := by field_simp
  · exact le_of_eq (by field_simp)

/-- **C154 (Adam, bounded steps).** Whatever the gradients, if `beta1 ^ 2 < beta2`, each component moves in the `n`-th step by at most `lr`
times `(1 - beta1) / sqrt((1 - beta2) * (1 - beta1^2 / beta2))` times the ratio `sqrt(1 - beta2^n) / (1 - beta1^n)` of the bias corrections. -/
theorem C154_adam_bounded (x0 : Fin d → ℝ) (lr b1 b2 eps : Option ℝ) (hok : AdamOk (adam x0 lr b1 b2 eps))
    (hl : 0 ≤ (adam x0 lr b1 b2 eps).lr) (hb : (adam x0 lr b1 b2 eps).beta1 ^ 2 < (adam x0 lr b1 b2 eps).beta2)
    (gs : List (Fin d → ℝ)) (g : Fin d → ℝ) (j : Fin d) :
    let s := adam x0 lr b1 b2 eps
    let n := gs.length + 1
    |((gs ++ [g]).foldl adamTell s).center j - (gs.foldl adamTell s).center j| ≤
      s.lr * ((1 - s.beta1) / Real.sqrt ((1 - s.beta2) * (1 - s.beta1 ^ 2 / s.beta2))) * (Real.sqrt (1 - s.beta2 ^ n) / (1 - s.beta1 ^ n)) := by
  set s0 := adam x0 lr b1 b2 eps with hs0
  obtain ⟨hb1, hb1', hb2n, hb2', he⟩ := hok
  have hb2 : 0 < s0.beta2 := lt_of_le_of_lt (sq_nonneg _) hb
  have hr : 0 < 1 - s0.beta1 ^ 2 / s0.beta2 := by rw [sub_pos, div_lt_one hb2]; exact hb
  have h2 : 0 < 1 - s0.beta2 := by linarith
  have h1 : 0 < 1 - s0.beta1 := by linarith
  set A := (1 - s0.beta1) ^ 2 / ((1 - s0.beta2) * (1 - s0.beta1 ^ 2 / s0.beta2)) with hA
  have hA0 : 0 ≤ A := by positivity
  have hfix : s0.beta1 ^ 2 / s0.beta2 * A + (1 - s0.beta1) ^ 2 / (1 - s0.beta2) = A := by
    have : (1 - s0.beta1) ^ 2 / (1 - s0.beta2) = A * (1 - s0.beta1 ^ 2 / s0.beta2) := by
      rw [hA, ← div_div, div_mul_cancel₀ _ hr.ne']
    rw [this]; ring
  have hsA : Real.sqrt A = (1 - s0.beta1) / Real.sqrt ((1 - s0.beta2) * (1 - s0.beta1 ^ 2 / s0.beta2)) := by
    rw [hA, Real.sqrt_div (sq_nonneg _), Real.sqrt_sq h1.le]
  have key : ∀ gs : List (Fin d → ℝ), let s := gs.foldl adamTell s0
      s.beta1 = s0.beta1 ∧ s.beta2 = s0.beta2 ∧ s.eps = s0.eps ∧ s.lr = s0.lr ∧ s.t = gs.length ∧ 0 ≤ s.v j ∧ s.m j ^ 2 ≤ A * s.v j := by
    intro gs
    induction gs using List.reverseRecOn with
    | nil => simp [hs0, adam]
    | append_singleton gs g ih =>
      obtain ⟨i1, i2, i3, i4, i5, i6, i7⟩ := ih
      rw [List.foldl_append]
      simp only [List.foldl_cons, List.foldl_nil, adamTell]
      rw [i1, i2, i3, i4, i5]
      refine ⟨rfl, rfl, rfl, rfl, by simp, by positivity, ?_⟩
      have := averages_step (b1 := s0.beta1) (g := g j) hb2 hb2' hA0 i6 i7
      rwa [hfix] at this
  intro s n
  obtain ⟨i1, i2, i3, i4, i5, i6, i7⟩ := key gs
  obtain ⟨-, -, -, -, -, k6, k7⟩ := key (gs ++ [g])
  rw [List.foldl_append] at k6 k7 ⊢
  simp only [List.foldl_cons, List.foldl_nil, adamTell] at k6 k7 ⊢
  rw [i1] at k7
  rw [i2] at k6 k7
  rw [i1, i2, i3, i4, i5]
  show |_| ≤ s0.lr * _ * (Real.sqrt (1 - s0.beta2 ^ (gs.length + 1)) / (1 - s0.beta1 ^ (gs.length + 1)))
  rw [← hsA]
  generalize s0.beta1 * (gs.foldl adamTell s0).m j + (1 - s0.beta1) * g j = m at k7 ⊢
  generalize s0.beta2 * (gs.foldl adamTell s0).v j + (1 - s0.beta2) * g j ^ 2 = v at k6 k7 ⊢
  have c1 : 0 < 1 - s0.beta1 ^ (gs.length + 1) := sub_pos.mpr (pow_lt_one₀ hb1 hb1' (Nat.succ_ne_zero _))
  have c2 : 0 < 1 - s0.beta2 ^ (gs.length + 1) := sub_pos.mpr (pow_lt_one₀ hb2.le hb2' (Nat.succ_ne_zero _))
  generalize 1 - s0.beta1 ^ (gs.length + 1) = e1 at c1 ⊢
  generalize 1 - s0.beta2 ^ (gs.length + 1) = e2 at c2 ⊢
  have hD : 0 < Real.sqrt (v / e2) + s0.eps := by positivity
  have hm : |m| ≤ Real.sqrt A * Real.sqrt e2 * (Real.sqrt (v / e2) + s0.eps) := by
    have h3 : |m| ≤ Real.sqrt (A * v) := by rw [← Real.sqrt_sq_eq_abs]; exact Real.sqrt_le_sqrt k7
    have h4 : Real.sqrt (A * v) = Real.sqrt A * Real.sqrt e2 * Real.sqrt (v / e2) := by
      rw [mul_assoc, ← Real.sqrt_mul c2.le, mul_div_cancel₀ _ c2.ne', Real.sqrt_mul hA0]
    have h5 : 0 ≤ Real.sqrt A * Real.sqrt e2 * s0.eps := by positivity
    rw [h4] at h3
    rw [mul_add]; linarith
  rw [add_sub_cancel_left, abs_div, abs_mul, abs_div, abs_of_nonneg hl, abs_of_pos c1, abs_of_pos hD, div_le_iff₀ hD]
  calc s0.lr * (|m| / e1) ≤ s0.lr * (Real.sqrt A * Real.sqrt e2 * (Real.sqrt (v / e2) + s0.eps) / e1) := by gcongr
    _ = _ := by ring

/-- The default settings meet the conditions. -/
example (x0 : Fin d → ℝ) : AdamOk (adam x0 none none none none) ∧ 0 ≤ (adam x0 none none none none).lr ∧
    (adam x0 none none none none).beta1 ^ 2 < (adam x0 none none none none).beta2 := by
  refine ⟨⟨?_, ?_, ?_, ?_, ?_⟩, ?_, ?_⟩ <;> norm_num [adam]

end EvoTorch.Optimizers
