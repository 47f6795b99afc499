import Verif.Model.Optimizers
import Mathlib.Data.Fin.VecNotation
import Mathlib.Tactic.FieldSimp
import Mathlib.Tactic.Linarith
import Mathlib.Tactic.NormNum
/-! C52: ClipUp never exceeds its maximum speed. C53: class-based and functional optimisers agree. C54: parameter groups.
C79: initial standard deviations. -/
namespace EvoTorch.Optimizers
variable {d : Nat}

theorem norm_nonneg' (x : Fin d → ℝ) : 0 ≤ norm x := Real.sqrt_nonneg _

theorem norm_smul' (r : ℝ) (x : Fin d → ℝ) : norm (fun j => r * x j) = |r| * norm x := by
  unfold norm
  simp only [mul_pow, ← Finset.mul_sum]
  rw [Real.sqrt_mul (sq_nonneg r), Real.sqrt_sq_eq_abs]

theorem norm_pos_iff' {x : Fin d → ℝ} : norm x ≠ 0 ↔ ∃ j, x j ≠ 0 := by
  unfold norm
  have hn : 0 ≤ ∑ j, x j ^ 2 := Finset.sum_nonneg fun j _ => sq_nonneg _
  rw [Ne, Real.sqrt_eq_zero hn, Finset.sum_eq_zero_iff_of_nonneg fun j _ => sq_nonneg _]
  constructor
  · intro h
    by_contra hc
    push Not at hc
    exact h fun j _ => by simp [hc j]
  · rintro ⟨j, hj⟩ h
    exact hj (by simpa using h j (Finset.mem_univ j))

theorem clip_norm {x : Fin d → ℝ} {limit : ℝ} (hl : 0 ≤ limit) : ∃ v, clip (some x) limit = some v ∧ norm v ≤ limit := by
  unfold clip
  simp only
  split
  · rename_i h
    refine ⟨_, rfl, ?_⟩
    have hn : 0 < norm x := lt_of_le_of_lt hl h
    have : (fun j => x j * (limit / norm x)) = fun j => (limit / norm x) * x j := by funext j; ring
    rw [this, norm_smul', abs_of_nonneg (div_nonneg hl hn.le), div_mul_cancel₀ _ hn.ne']
  · rename_i h
    exact ⟨x, rfl, not_lt.mp h⟩

theorem clipF_eq_clip (v : NVec d) {m : ℝ} (hm : 0 ≤ m) : clipF v m = clip v m := by
  cases v with
  | none => rfl
  | some v =>
    unfold clipF clip
    simp only
    by_cases h : norm v > m
    · have h0 : norm v ≠ 0 := (lt_of_le_of_lt hm h).ne'
      rw [if_pos h, if_neg h0, if_pos h]
      congr 1; funext j; field_simp
    · rw [if_neg h, if_neg h]

/-- What the user must not do: give a zero gradient, or assign a negative maximum speed. -/
def OpOk : Op d → Prop
  | .ascent g => ∃ j, g j ≠ 0
  | .set k v => k = "max_speed" → 0 ≤ v

theorem setitem_ok {c c' : ClipUp d} {k : String} {v : ℝ} (h : c.setitem k v = .ok c') :
    c'.velocity = c.velocity ∧ (c'.maxSpeed = c.maxSpeed ∨ (k = "max_speed" ∧ c'.maxSpeed = v)) := by
  unfold ClipUp.setitem at h
  split at h
  · cases h
  · rename_i attr he
    cases h1 : checkLimit paramGroupItemLb attr k (fun lb => v < lb) with
    | error e => rw [h1] at h; cases h
    | ok _ =>
      cases h2 : checkLimit paramGroupItemUb attr k (fun ub => v > ub) with
      | error e => rw [h1, h2] at h; cases h
      | ok _ =>
        rw [h1, h2] at h
        have h : c' = c.setattr attr v := by
          injection h with h; exact h.symm
        subst h
        have hk : (k = "lr" ∧ attr = "_stepsize") ∨ (k = "max_speed" ∧ attr = "_max_speed") ∨
            (k = "momentum" ∧ attr = "_momentum") := by
          simp only [paramGroupItems, List.lookup] at he
          split at he
          · rename_i hk; left; exact ⟨by simpa using hk, by simpa using he.symm⟩
          · split at he
            · rename_i hk; right; left; exact ⟨by simpa using hk, by simpa using he.symm⟩
            · split at he
              · rename_i hk; right; right; exact ⟨by simpa using hk, by simpa using he.symm⟩
              · cases he
        rcases hk with ⟨rfl, rfl⟩ | ⟨rfl, rfl⟩ | ⟨rfl, rfl⟩ <;> simp [ClipUp.setattr]

theorem ascent_ok {c : ClipUp d} (hm : 0 ≤ c.maxSpeed) (hv : ∃ v, c.velocity = some v) {g : Fin d → ℝ} (hg : ∃ j, g j ≠ 0) :
    ∃ v, (c.ascent g).2 = some v ∧ (c.ascent g).1 = { c with velocity := some v } ∧ norm v ≤ c.maxSpeed := by
  obtain ⟨v0, hv⟩ := hv
  have hn : normalize g = some fun j => g j / norm g := by
    unfold normalize; rw [if_neg (norm_pos_iff'.2 hg)]
  obtain ⟨v, h1, h2⟩ := clip_norm (x := fun j => c.momentum * v0 j + g j / norm g * c.stepsize) hm
  refine ⟨v, ?_, ?_, h2⟩ <;> simp only [ClipUp.ascent, hn, Option.map_some, hv, addScaled, h1]

theorem runOps_ok (ops : List (Op d)) : ∀ c : ClipUp d, 0 ≤ c.maxSpeed → (∃ v, c.velocity = some v) → (∀ op ∈ ops, OpOk op) →
    0 ≤ (c.runOps ops).maxSpeed ∧ ∃ v, (c.runOps ops).velocity = some v := by
  induction ops with
  | nil => intro c h1 h2 _; exact ⟨h1, h2⟩
  | cons op ops ih =>
    intro c h1 h2 h
    have hop := h op (by simp)
    show 0 ≤ ((c.step op).runOps ops).maxSpeed ∧ ∃ v, ((c.step op).runOps ops).velocity = some v
    refine ih _ ?_ ?_ fun o ho => h o (by simp [ho])
    · cases op with
      | ascent g => exact h1
      | set k v =>
        show 0 ≤ (match c.setitem k v with | .ok c' => c' | .error _ => c).maxSpeed
        cases hs : c.setitem k v with
        | error e => exact h1
        | ok c' =>
          rcases (setitem_ok hs).2 with e | ⟨e, e'⟩
          · show 0 ≤ c'.maxSpeed; rw [e]; exact h1
          · show 0 ≤ c'.maxSpeed; rw [e']; exact hop e
    · cases op with
      | ascent g =>
        obtain ⟨v, _, h, _⟩ := ascent_ok h1 h2 hop
        exact ⟨v, by show (c.ascent g).1.velocity = _; rw [h]⟩
      | set k v =>
        show ∃ v', (match c.setitem k v with | .ok c' => c' | .error _ => c).velocity = some v'
        cases hs : c.setitem k v with
        | error e => exact h2
        | ok c' => show ∃ v', c'.velocity = some v'; rw [(setitem_ok hs).1]; exact h2

theorem create_ok {stepsize momentum : ℝ} {maxSpeed : Option ℝ} {c : ClipUp d} :
    ClipUp.create d stepsize momentum maxSpeed = .ok c ↔ 0 ≤ stepsize ∧ 0 ≤ momentum ∧ momentum ≤ 1 ∧
      0 ≤ maxSpeed.getD (stepsize * 2) ∧ c = ⟨stepsize, momentum, maxSpeed.getD (stepsize * 2), some fun _ => 0⟩ := by
  unfold ClipUp.create
  simp only
  constructor
  · intro h
    split at h
    · cases h
    · split at h
      · cases h
      · split at h
        · cases h
        · rename_i h1 h2 h3
          push Not at h1 h2 h3
          injection h with h
          exact ⟨h1, h2.1, h2.2, h3, h.symm⟩
  · rintro ⟨h1, h2, h3, h4, rfl⟩
    rw [if_neg (not_lt.mpr h1), if_neg (by rintro (h | h) <;> linarith), if_neg (not_lt.mpr h4)]

/-! ### C52 -/

/-- **C52**, class. For every `ClipUp` object that can be created, after every history of ascents with non-zero gradients and of
assignments to its parameter group (any values, the maximum speed not negative), the next ascent with a non-zero gradient
returns a step whose norm is at most the current maximum speed; following it moves a center by at most that much. -/
theorem C52_class (stepsize momentum : ℝ) (maxSpeed : Option ℝ) (c : ClipUp d)
    (hc : ClipUp.create d stepsize momentum maxSpeed = .ok c) (history : List (Op d)) (hh : ∀ op ∈ history, OpOk op)
    (g : Fin d → ℝ) (hg : ∃ j, g j ≠ 0) :
    ∃ v, ((c.runOps history).ascent g).2 = some v ∧ norm v ≤ (c.runOps history).maxSpeed ∧
      ∀ x : Fin d → ℝ, ∃ x', addVec (some x) ((c.runOps history).ascent g).2 = some x' ∧
        norm (fun j => x' j - x j) ≤ (c.runOps history).maxSpeed := by
  have h0 : 0 ≤ c.maxSpeed ∧ ∃ v, c.velocity = some v := by
    obtain ⟨_, _, _, h, rfl⟩ := create_ok.mp hc
    exact ⟨h, _, rfl⟩
  obtain ⟨h1, h2⟩ := runOps_ok history c h0.1 h0.2 hh
  obtain ⟨v, e, _, hv⟩ := ascent_ok h1 h2 hg
  refine ⟨v, e, hv, fun x => ⟨fun j => x j + v j, by rw [e]; rfl, ?_⟩⟩
  have : (fun j => x j + v j - x j) = v := by funext j; ring
  rw [this]; exact hv

/-- Non-vacuity: an object with the default maximum speed, and a history that changes it in between. -/
example : (∃ c, ClipUp.create 1 (1/10) (9/10) none = .ok c) ∧
    (∀ op ∈ ([.ascent ![1], .set "max_speed" (1/10), .ascent ![-2], .set "lr" 3] : List (Op 1)), OpOk op) := by
  constructor
  · exact ⟨_, create_ok.mpr ⟨by norm_num, by norm_num, by norm_num, by norm_num, rfl⟩⟩
  · intro op h
    simp only [List.mem_cons, List.not_mem_nil, or_false] at h
    rcases h with rfl | rfl | rfl | rfl
    · exact ⟨0, by norm_num⟩
    · intro; norm_num
    · exact ⟨0, by norm_num⟩
    · intro h; simp at h

theorem tell_ok {s : ClipUpState d} (hm : 0 ≤ s.maxSpeed) (hv : ∃ v, s.velocity = some v) (hc : ∃ x, s.center = some x)
    {g : Fin d → ℝ} (hg : ∃ j, g j ≠ 0) : ∃ x x' v, s.center = some x ∧ (clipupTell s g).center = some x' ∧
      (clipupTell s g).velocity = some v ∧ norm v ≤ s.maxSpeed ∧ (∀ j, x' j = x j + v j) ∧
      (clipupTell s g).maxSpeed = s.maxSpeed := by
  obtain ⟨v0, hv⟩ := hv
  obtain ⟨x, hc⟩ := hc
  have hn : normalize g = some fun j => g j / norm g := by
    unfold normalize; rw [if_neg (norm_pos_iff'.2 hg)]
  obtain ⟨v, h1, h2⟩ := clip_norm (x := fun j => s.momentum * v0 j + s.lr * (g j / norm g)) hm
  refine ⟨x, fun j => x j + v j, v, hc, ?_, ?_, h2, fun j => rfl, rfl⟩ <;>
    simp only [clipupTell, hn, Option.map_some, hv, addScaled, clipF_eq_clip _ hm, h1, hc, addVec]

/-- **C52**, functional. For every initial state with a non-negative maximum speed (given, or derived from a non-negative
learning rate) and every history of non-zero gradients, consecutive centers are at most `max_speed` apart. -/
theorem C52_functional (x0 : Fin d → ℝ) (momentum : ℝ) (lr maxSpeed : Option ℝ) (s : ClipUpState d)
    (hs : clipup x0 momentum lr maxSpeed = .ok s) (hm : 0 ≤ s.maxSpeed) (gs : List (Fin d → ℝ))
    (hg : ∀ g ∈ gs, ∃ j, g j ≠ 0) :
    (∀ y ∈ clipupCenters s gs, ∃ x, y = some x) ∧
    ∀ i x x', (clipupCenters s gs)[i]? = some (some x) → (clipupCenters s gs)[i + 1]? = some (some x') →
      norm (fun j => x' j - x j) ≤ s.maxSpeed := by
  have hv : ∃ v, s.velocity = some v := by
    unfold clipup at hs
    split at hs
    · cases hs
    all_goals (injection hs with hs; subst hs; exact ⟨_, rfl⟩)
  have hc : ∃ v, s.center = some v := by
    unfold clipup at hs
    split at hs
    · cases hs
    all_goals (injection hs with hs; subst hs; exact ⟨_, rfl⟩)
  clear hs
  induction gs generalizing s with
  | nil =>
    refine ⟨?_, ?_⟩
    · intro y hy; rw [List.mem_singleton.mp hy]; exact hc
    · intro i x x' _ h2; simp [clipupCenters] at h2
  | cons g gs ih =>
    obtain ⟨x, x', v, e1, e2, e3, e4, e5, e6⟩ := tell_ok hm hv hc (hg g (by simp))
    obtain ⟨i1, i2⟩ := ih (clipupTell s g) (by rw [e6]; exact hm) (fun g' h => hg g' (by simp [h])) ⟨v, e3⟩ ⟨x', e2⟩
    refine ⟨?_, ?_⟩
    · intro y hy
      rcases List.mem_cons.mp hy with rfl | hy
      · exact hc
      · exact i1 y hy
    · intro i y y' h1 h2
      cases i with
      | zero =>
        have h1 : s.center = some y := by simpa [clipupCenters] using h1
        have h2 : (clipupTell s g).center = some y' := by
          cases gs <;> simpa [clipupCenters] using h2
        rw [e1] at h1; rw [e2] at h2
        injection h1 with h1; injection h2 with h2
        subst h1 h2
        have : (fun j => x' j - x j) = v := by funext j; rw [e5]; ring
        rw [this]; exact e4
      | succ i => rw [← e6]; exact i2 i y y' (by simpa [clipupCenters] using h1) (by simpa [clipupCenters] using h2)

example : ∃ s, clipup (![1, 2] : Fin 2 → ℝ) (9/10) none (some 1) = .ok s ∧ 0 ≤ s.maxSpeed :=
  ⟨_, rfl, by norm_num⟩

/-- **C52**, why the gradients must not be zero: a single zero gradient turns the velocity, and with it every later step, into
NaN, whatever gradients follow. -/
theorem C52_zero_gradient (c : ClipUp d) (gs : List (Fin d → ℝ)) (g : Fin d → ℝ) :
    (((c.ascent fun _ => 0).1.runOps (gs.map .ascent)).ascent g).2 = none := by
  have h0 : ((c.ascent fun _ => 0).1).velocity = none := by
    have : normalize (fun _ : Fin d => (0:ℝ)) = none := by
      unfold normalize; simp [norm]
    simp only [ClipUp.ascent, this, Option.map_none]
    cases c.velocity <;> rfl
  generalize (c.ascent fun _ => 0).1 = c' at h0
  have hst : ∀ c' : ClipUp d, c'.velocity = none → ∀ g, (c'.ascent g).2 = none := by
    intro c' h g; simp only [ClipUp.ascent, h, addScaled]; rfl
  have : ∀ (gs : List (Fin d → ℝ)) (c' : ClipUp d), c'.velocity = none → (c'.runOps (gs.map .ascent)).velocity = none := by
    intro gs
    induction gs with
    | nil => intro c' h; exact h
    | cons g gs ih => intro c' h; exact ih _ (hst c' h g)
  exact hst _ (this gs _ h0) g

/-! ### C53 -/

/-- **C53**, ClipUp. Whenever the class accepts its settings, the class and the functional optimiser with the same step size,
momentum and maximum speed visit the same centers, for every initial center and every history of gradients (zero gradients
included: both become NaN at the same step). -/
theorem C53_clipup (stepsize momentum : ℝ) (maxSpeed : Option ℝ) (c : ClipUp d)
    (hc : ClipUp.create d stepsize momentum maxSpeed = .ok c) (x0 : Fin d → ℝ) (gs : List (Fin d → ℝ)) :
    ∃ s, clipup x0 momentum (some stepsize) maxSpeed = .ok s ∧ clipupCenters s gs = c.centers (some x0) gs := by
  have key : ∀ (gs : List (Fin d → ℝ)) (c : ClipUp d) (x : NVec d) (s : ClipUpState d), 0 ≤ c.maxSpeed → s.center = x →
      s.velocity = c.velocity → s.lr = c.stepsize → s.momentum = c.momentum → s.maxSpeed = c.maxSpeed →
      clipupCenters s gs = c.centers x gs := by
    intro gs
    induction gs with
    | nil => intro c x s _ h1 _ _ _ _; simp [clipupCenters, ClipUp.centers, h1]
    | cons g gs ih =>
      intro c x s hm h1 h2 h3 h4 h5
      have hvel : (clipupTell s g).velocity = (c.ascent g).2 := by
        simp only [clipupTell, ClipUp.ascent, h2, h3, h4, h5, clipF_eq_clip _ hm]
        congr 2
        cases normalize g with
        | none => rfl
        | some u => simp only [Option.map_some]; congr 1; funext j; ring
      simp only [clipupCenters, ClipUp.centers, h1]
      congr 1
      refine ih _ _ _ hm ?_ hvel h3 h4 h5
      show addVec s.center (clipupTell s g).velocity = _
      rw [hvel, h1]
  obtain ⟨_, _, _, h, rfl⟩ := create_ok.mp hc
  cases maxSpeed with
  | none => exact ⟨_, rfl, key gs _ _ _ h rfl rfl rfl rfl rfl⟩
  | some m => exact ⟨_, rfl, key gs _ _ _ h rfl rfl rfl rfl rfl⟩

/-- **C53**, SGD: the class without dampening and Nesterov momentum, and the functional optimiser. -/
theorem C53_sgd (stepsize : ℝ) (momentum : Option ℝ) (x0 : Fin d → ℝ) (gs : List (Fin d → ℝ)) :
    (SGD.create d stepsize momentum none none).centers x0 gs = sgdCenters (sgd x0 stepsize momentum) gs := by
  have key : ∀ (gs : List (Fin d → ℝ)) (c : SGD d) (s : SGDState d), c.dampening = 0 → c.nesterov = false →
      s.lr = c.lr → s.momentum = c.momentum →
      (∀ j, s.momentum * s.velocity j = match c.buf with | none => 0 | some b => c.lr * (c.momentum * b j)) →
      c.centers s.center gs = sgdCenters s gs := by
    intro gs
    induction gs with
    | nil => intros; rfl
    | cons g gs ih =>
      intro c s h1 h2 h3 h4 h5
      have hstep : (fun j => s.center j + (c.ascent g).2 j) = (sgdTell s g).center ∧
          (∀ j, (sgdTell s g).momentum * (sgdTell s g).velocity j =
            match (c.ascent g).1.buf with | none => 0 | some b => c.lr * (c.momentum * b j)) := by
        by_cases hm : c.momentum = 0
        · have e : (c.ascent g) = (c, fun j => -1 * ((0 : ℝ) - c.lr * g j)) := by
            have hm' : ¬ (c.momentum ≠ 0) := not_not.mpr hm
            simp only [SGD.ascent, if_neg hm']
          refine ⟨funext fun j => ?_, fun j => ?_⟩
          · rw [e]; simp only [sgdTell, h3, h4, hm]; ring
          · rw [e]; simp only [sgdTell, h4, hm]
            cases c.buf <;> simp
        · cases hb : c.buf with
          | none =>
            have e : (c.ascent g) = ({ c with buf := some g }, fun j => -1 * ((0 : ℝ) - c.lr * g j)) := by
              unfold SGD.ascent; simp [hm, hb, h2]
            have h5' : ∀ j, s.momentum * s.velocity j = 0 := fun j => by rw [h5 j, hb]
            refine ⟨funext fun j => ?_, fun j => ?_⟩
            · rw [e]; simp only [sgdTell, h3, h5']; ring
            · rw [e]
              show s.momentum * (s.momentum * s.velocity j + s.lr * g j) = _
              rw [h5', h3, h4]
              simp only
              ring
          | some b =>
            have e : (c.ascent g) = ({ c with buf := some fun j => c.momentum * b j + g j },
                fun j => -1 * ((0 : ℝ) - c.lr * (c.momentum * b j + g j))) := by
              unfold SGD.ascent; simp [hm, hb, h2, h1]
            have h5' : ∀ j, s.momentum * s.velocity j = c.lr * (c.momentum * b j) := fun j => by rw [h5 j, hb]
            refine ⟨funext fun j => ?_, fun j => ?_⟩
            · rw [e]; simp only [sgdTell, h3, h5']; ring
            · rw [e]
              show s.momentum * (s.momentum * s.velocity j + s.lr * g j) = _
              rw [h5', h3, h4]
              simp only
              ring
      have hfix : (c.ascent g).1.dampening = c.dampening ∧ (c.ascent g).1.nesterov = c.nesterov ∧
          (c.ascent g).1.lr = c.lr ∧ (c.ascent g).1.momentum = c.momentum := ⟨rfl, rfl, rfl, rfl⟩
      simp only [SGD.centers, sgdCenters]
      rw [hstep.1]
      congr 1
      exact ih _ _ (hfix.1 ▸ h1) (hfix.2.1.trans h2) h3 h4 hstep.2
  refine key gs _ (sgd x0 stepsize momentum) rfl rfl rfl ?_ ?_
  · cases momentum <;> rfl
  · intro j; simp [sgd, SGD.create]

/-- **C53**, Adam: for settings that torch accepts (`0 ≤ beta < 1`) and a positive epsilon (so that no
division by zero, which real arithmetic would hide, occurs in either). -/
theorem C53_adam (lr beta1 beta2 eps : Option ℝ) (a : Adam d) (ha : Adam.create d lr beta1 beta2 eps = .ok a)
    (h1 : 0 ≤ a.beta1 ∧ a.beta1 < 1) (h2 : 0 ≤ a.beta2 ∧ a.beta2 < 1) (he : 0 < a.eps) (x0 : Fin d → ℝ)
    (gs : List (Fin d → ℝ)) : a.centers x0 gs = adamCenters (adam x0 lr beta1 beta2 eps) gs := by
  have key : ∀ (gs : List (Fin d → ℝ)) (a : Adam d) (s : AdamState d), 0 ≤ a.beta2 ∧ a.beta2 < 1 → s.lr = a.lr →
      s.beta1 = a.beta1 → s.beta2 = a.beta2 → s.eps = a.eps → s.m = a.m → s.v = a.v → s.t = a.t →
      a.centers s.center gs = adamCenters s gs := by
    intro gs
    induction gs with
    | nil => intros; rfl
    | cons g gs ih =>
      intro a s hb e1 e2 e3 e4 e5 e6 e7
      have hm : (adamTell s g).m = (a.ascent g).1.m := by
        funext j; simp only [adamTell, Adam.ascent, e2, e5]; ring
      have hv : (adamTell s g).v = (a.ascent g).1.v := by
        funext j; simp only [adamTell, Adam.ascent, e3, e6]; ring
      have hc : (fun j => s.center j + (a.ascent g).2 j) = (adamTell s g).center := by
        funext j
        have hm' : s.beta1 * s.m j + (1 - s.beta1) * g j = a.m j + (g j - a.m j) * (1 - a.beta1) := congrFun hm j
        have hv' : s.beta2 * s.v j + (1 - s.beta2) * g j ^ 2 = a.v j * a.beta2 + (1 - a.beta2) * (g j * g j) := congrFun hv j
        have hb2 : 0 ≤ 1 - a.beta2 ^ (a.t + 1) := by
          have := pow_le_one₀ (n := a.t + 1) hb.1 hb.2.le; linarith
        simp only [adamTell, Adam.ascent]
        rw [hm', hv', e1, e4, e7, e2, e3, Real.sqrt_div' _ hb2]
        ring
      simp only [Adam.centers, adamCenters]
      rw [hc]
      congr 1
      exact ih _ _ hb e1 e2 e3 e4 hm hv (by show s.t + 1 = a.t + 1; rw [e7])
  unfold Adam.create at ha
  split at ha
  · injection ha with ha; subst ha
    exact key gs _ (adam x0 lr none none eps) h2 rfl rfl rfl rfl rfl rfl rfl
  · injection ha with ha; subst ha
    exact key gs _ (adam x0 lr _ _ eps) h2 rfl rfl rfl rfl rfl rfl rfl
  · cases ha

/-- Non-vacuity: the default settings of Adam satisfy the hypotheses; two steps of SGD with momentum. -/
example : (∃ a, Adam.create 2 none none none none = .ok a ∧ (0 ≤ a.beta1 ∧ a.beta1 < 1) ∧ (0 ≤ a.beta2 ∧ a.beta2 < 1) ∧ 0 < a.eps) ∧
    (sgdCenters (sgd (fun _ : Fin 1 => 0) 1 (some 2)) [![1], ![1]]).map (· 0) = [0, 1, 4] := by
  constructor
  · exact ⟨_, rfl, by norm_num, by norm_num, by norm_num⟩
  · simp [sgdCenters, sgd, sgdTell]; norm_num

/-! ### C54 -/

/-- **C54 (partial).** Keys other than `lr`, `max_speed` and `momentum` are refused, creation refuses invalid settings, and an
accepted assignment is what is read back. Missing: the check of the assigned value, see `C54_violated`. -/
theorem C54_param_group_partial (c : ClipUp d) :
    (∀ k v, k ∉ ["lr", "max_speed", "momentum"] → c.setitem k v = .error .keyError) ∧
    (∀ stepsize momentum m, (∃ c', ClipUp.create d stepsize momentum (some m) = .ok c') ↔
      0 ≤ stepsize ∧ 0 ≤ momentum ∧ momentum ≤ 1 ∧ 0 ≤ m) ∧
    (∀ k v c', c.setitem k v = .ok c' → c'.getitem k = .ok v ∧ ∀ k', k' ≠ k → c'.getitem k' = c.getitem k') := by
  refine ⟨?_, ?_, ?_⟩
  · intro k v hk
    simp only [List.mem_cons, List.not_mem_nil, or_false, not_or] at hk
    unfold ClipUp.setitem paramGroupItems
    simp [List.lookup, hk.1, hk.2.1, hk.2.2, beq_eq_false_iff_ne.mpr]
  · intro s m ms
    constructor
    · rintro ⟨c', h⟩
      obtain ⟨h1, h2, h3, h4, _⟩ := create_ok.mp h
      exact ⟨h1, h2, h3, h4⟩
    · rintro ⟨h1, h2, h3, h4⟩
      exact ⟨_, create_ok.mpr ⟨h1, h2, h3, h4, rfl⟩⟩
  · intro k v c' h
    by_cases hk : k = "lr"
    · subst hk
      simp [ClipUp.setitem, paramGroupItems, checkLimit, paramGroupItemLb, paramGroupItemUb, List.lookup, bind, Except.bind, pure,
        Except.pure, ClipUp.setattr] at h
      subst h
      refine ⟨rfl, fun k' hk' => ?_⟩
      by_cases h1 : k' = "max_speed"
      · subst h1; rfl
      · by_cases h2 : k' = "momentum"
        · subst h2; rfl
        · simp [ClipUp.getitem, paramGroupItems, List.lookup, hk', h1, h2, beq_eq_false_iff_ne.mpr]
    · by_cases hk2 : k = "max_speed"
      · subst hk2
        simp [ClipUp.setitem, paramGroupItems, checkLimit, paramGroupItemLb, paramGroupItemUb, List.lookup, bind, Except.bind, pure,
          Except.pure, ClipUp.setattr] at h
        subst h
        refine ⟨rfl, fun k' hk' => ?_⟩
        by_cases h1 : k' = "lr"
        · subst h1; rfl
        · by_cases h2 : k' = "momentum"
          · subst h2; rfl
          · simp [ClipUp.getitem, paramGroupItems, List.lookup, hk', h1, h2, beq_eq_false_iff_ne.mpr]
      · by_cases hk3 : k = "momentum"
        · subst hk3
          simp [ClipUp.setitem, paramGroupItems, checkLimit, paramGroupItemLb, paramGroupItemUb, List.lookup, bind, Except.bind, pure,
            Except.pure, ClipUp.setattr] at h
          subst h
          refine ⟨rfl, fun k' hk' => ?_⟩
          by_cases h1 : k' = "lr"
          · subst h1; rfl
          · by_cases h2 : k' = "max_speed"
            · subst h2; rfl
            · simp [ClipUp.getitem, paramGroupItems, List.lookup, hk', h1, h2, beq_eq_false_iff_ne.mpr]
        · unfold ClipUp.setitem paramGroupItems at h
          simp [List.lookup, hk, hk2, hk3, beq_eq_false_iff_ne.mpr] at h

/-- **C54, violated.** No value is ever refused: every assignment to one of the three keys succeeds; so an object can be given a
momentum of 2, a negative step size or a negative maximum speed (after which it moves against the gradient). -/
theorem C54_violated (c : ClipUp d) (k : String) (v : ℝ) (hk : k ∈ ["lr", "max_speed", "momentum"]) :
    ∃ c', c.setitem k v = .ok c' ∧ c'.getitem k = .ok v := by
  simp only [List.mem_cons, List.not_mem_nil, or_false] at hk
  rcases hk with rfl | rfl | rfl <;>
    exact ⟨c.setattr _ v, by simp [ClipUp.setitem, paramGroupItems, checkLimit, paramGroupItemLb, paramGroupItemUb, List.lookup,
      bind, Except.bind, pure, Except.pure]; rfl, rfl⟩

/-- A concrete object with `max_speed = -1`: given the gradient 1 it steps by -1. -/
example : ∃ c c', ClipUp.create 1 1 0 none = .ok c ∧ c.setitem "max_speed" (-1) = .ok c' ∧
    ∃ v, (c'.ascent ![1]).2 = some v ∧ v 0 = -1 := by
  refine ⟨⟨1, 0, 2, some fun _ => 0⟩, ⟨1, 0, -1, some fun _ => 0⟩, ?_, ?_, ?_⟩
  · exact create_ok.mpr ⟨by norm_num, by norm_num, by norm_num, by norm_num, by norm_num⟩
  · simp [ClipUp.setitem, paramGroupItems, checkLimit, paramGroupItemLb, paramGroupItemUb, List.lookup, bind,
      Except.bind, pure, Except.pure, ClipUp.setattr]
  · have h1 : norm (![1] : Fin 1 → ℝ) = 1 := by simp [norm]
    have h2 : norm (fun j : Fin 1 => 0 * (0:ℝ) + ![(1:ℝ)] j / 1 * 1) = 1 := by simp [norm]
    have hn : normalize (![1] : Fin 1 → ℝ) = some fun j => (![1] : Fin 1 → ℝ) j / 1 := by
      unfold normalize; rw [h1]; simp
    refine ⟨fun j => (0 * (0:ℝ) + ![(1:ℝ)] j / 1 * 1) * (-1 / 1), ?_, by norm_num⟩
    simp only [ClipUp.ascent, hn, Option.map_some, addScaled, clip, h2]
    norm_num

/-! ### C79: initial standard deviations -/

/-- The norm of a list of standard deviations. -/
noncomputable def listNorm (v : List ℝ) : ℝ := Real.sqrt (v.map (· ^ 2)).sum

/-- **C79.** For every solution length, exactly one of `stdev_init` and `radius_init` must be given; the class-based and the
functional algorithms then make the same standard deviation vector of them (or both refuse); a radius gives equal standard
deviations whose norm is the absolute value of the radius. -/
theorem C79_initial_stdev (n : Nat) (hn : 0 < n) :
    (∀ s r, getStdevInit n s r = (toStdevInit n s r >>= Stdev.expand n)) ∧
    (∀ s r, (s.isSome = r.isSome) → getStdevInit n s r = .error .valueError) ∧
    (∀ x, getStdevInit n (some (.scalar x)) none = .ok (List.replicate n x)) ∧
    (∀ v : List ℝ, v.length = n → getStdevInit n (some (.vector v)) none = .ok v) ∧
    (∀ v : List ℝ, v.length ≠ n → getStdevInit n (some (.vector v)) none = .error .valueError) ∧
    (∀ r : ℝ, ∃ x, getStdevInit n none (some r) = .ok (List.replicate n x) ∧ 0 ≤ x ∧ listNorm (List.replicate n x) = |r|) := by
  refine ⟨?_, ?_, fun x => rfl, ?_, ?_, ?_⟩
  · intro s r
    cases s with
    | none => cases r with
      | none => rfl
      | some r => simp [getStdevInit, toStdevInit, hn.ne', bind, Except.bind, Stdev.expand]
    | some s => cases r with
      | none => cases s <;> rfl
      | some r => cases s <;> rfl
  · intro s r h
    cases s with
    | none => cases r with
      | none => rfl
      | some r => simp at h
    | some s => cases r with
      | none => simp at h
      | some r => cases s <;> rfl
  · intro v hv; simp [getStdevInit, hv]
  · intro v hv; simp [getStdevInit, hv]
  · intro r
    refine ⟨Real.sqrt (r ^ 2 / n), rfl, Real.sqrt_nonneg _, ?_⟩
    have hn' : (0:ℝ) < n := by exact_mod_cast hn
    unfold listNorm
    rw [List.map_replicate, List.sum_replicate, Real.sq_sqrt (by positivity), nsmul_eq_mul, mul_div_cancel₀ _ hn'.ne',
      Real.sqrt_sq_eq_abs]

example : ∃ x, getStdevInit 4 none (some (-6)) = .ok (List.replicate 4 x) ∧ x = 3 := by
  refine ⟨_, rfl, ?_⟩
  rw [show (((-6 : ℝ)) ^ 2 / (4 : Nat)) = 3 ^ 2 by norm_num]
  exact Real.sqrt_sq (by norm_num)

end EvoTorch.Optimizers
