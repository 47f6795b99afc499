import Verif.Model.EnvStep
import Mathlib.Data.List.Forall2
import Mathlib.Algebra.Order.Ring.Rat
import Mathlib.Algebra.Field.Rat
import Mathlib.Tactic.Linarith
import Mathlib.Tactic.Positivity
import Mathlib.Analysis.SpecialFunctions.Integrals.Basic
/-!
C119: the agent sends legal actions to its environment, with the documented noise, and reads the answers of environments of the old and of the new API alike.
-/
namespace EvoTorch.EnvStep
open EvoTorch

section
variable {K : Type} [Field K] [LinearOrder K] [IsStrictOrderedRing K]

/-- Membership in an action space. -/
def Legal : Space K → Act K → Prop
  | .box low high, .vector v => v.length = low.length ∧ v.length = high.length ∧
      ∀ (i : ℕ) (x l h : K), v[i]? = some x → low[i]? = some l → high[i]? = some h → l ≤ x ∧ x ≤ h
  | .discrete n start, .choice i => start ≤ i ∧ i < start + n
  | _, _ => False

/-- What the libraries promise about `argmax`: the position of a greatest entry. -/
structure ArgmaxSpec (argmax : List K → ℕ) : Prop where
  lt : ∀ l, l ≠ [] → argmax l < l.length
  ge : ∀ l x y, l[argmax l]? = some y → x ∈ l → x ≤ y

/-- The number of outputs which a space needs. -/
def Space.width : Space K → ℕ
  | .box low _ => low.length
  | .discrete n _ => n

/-- A meaningful space: bounds of equal length, not crossing; at least one action. -/
def Space.Sound : Space K → Prop
  | .box low high => low.length = high.length ∧ ∀ (i : ℕ) (l h : K), low[i]? = some l → high[i]? = some h → l ≤ h
  | .discrete n _ => 0 < n

omit [IsStrictOrderedRing K] [Field K] in
theorem clip_get (low high x : List K) (i : ℕ) (y l h : K) (hx : x[i]? = some y) (hl : low[i]? = some l) (hh : high[i]? = some h) :
    (clip low high x)[i]? = some (min (max y l) h) := by
  simp [clip, List.getElem?_zipWith, hx, hl, hh]

omit [IsStrictOrderedRing K] in
/-- **C119 (agreement).** Without noise the same output of the network leads to the same action in `GymNE` and `VecGymNE`. -/
theorem C119_same_action (argmax : List K → ℕ) (space : Space K) (draws draws' out : List K) : gymAction argmax space none draws out = vecAction argmax space none draws' out := rfl

theorem legal_core {argmax : List K → ℕ} (ha : ArgmaxSpec argmax) (space : Space K) (hs : space.Sound) (hz : ∀ n s, space = .discrete n s → s = 0) (v : List K) (hv : v.length = space.width) :
    Legal space (gymAction argmax space none [] v) ∧ Legal space (vecAction argmax space none [] v) := by
  rw [← C119_same_action argmax space [] [] v, and_self_iff]
  cases space with
  | box low high =>
    simp only [Space.Sound] at hs
    simp only [Space.width] at hv
    refine ⟨by simp [clip, hv, ← hs.1], by simp [clip, hv, ← hs.1], fun i x l h hx hl hh => ?_⟩
    obtain ⟨y, hy⟩ : ∃ y, v[i]? = some y := by
      have : i < low.length := (List.getElem?_eq_some_iff.1 hl).1
      exact ⟨v[i]'(by omega), List.getElem?_eq_getElem _⟩
    rw [clip_get low high v i y l h hy hl hh] at hx
    simp only [Option.some.injEq] at hx
    subst hx
    exact ⟨le_min (le_max_right _ _) (hs.2 i l h hl hh), min_le_right _ _⟩
  | discrete n s =>
    obtain rfl := hz n s rfl
    simp only [Space.width] at hv
    simp only [Space.Sound] at hs
    have h1 := ha.lt v (by intro h; subst h; simp at hv; omega)
    show (0 : Int) ≤ ((argmax v : ℕ) : Int) ∧ ((argmax v : ℕ) : Int) < 0 + n
    exact ⟨by omega, by omega⟩

/-- **C119 (legal actions).** Whatever the network outputs and whatever the noise, in both problem classes, the action which reaches the environment belongs to its action space, if the network has the right
number of outputs and the numbering of discrete actions starts at 0. -/
theorem C119_legal_partial {argmax : List K → ℕ} (ha : ArgmaxSpec argmax) (space : Space K) (hs : space.Sound) (hz : ∀ n s, space = .discrete n s → s = 0) (noise : Option K) (draws out : List K)
    (hout : out.length = space.width) (hd : draws.length = out.length) :
    Legal space (gymAction argmax space noise draws out) ∧ Legal space (vecAction argmax space noise draws out) := by
  constructor
  · cases noise with
    | none => exact (legal_core ha space hs hz out hout).1
    | some s => exact (legal_core ha space hs hz (List.zipWith (fun x z => x + (0 + s * z)) out draws) (by simp [hd, hout])).1
  · cases noise with
    | none => exact (legal_core ha space hs hz out hout).2
    | some s => exact (legal_core ha space hs hz (List.zipWith (fun x u => x + u * s) out draws) (by simp [hd, hout])).2

/-- **C119 (greedy choice and clipping).** Without noise: a discrete action is the position of a greatest output; an output within the bounds is passed on unchanged. -/
theorem C119_action {argmax : List K → ℕ} (ha : ArgmaxSpec argmax) (out : List K) :
    (∀ n s, out ≠ [] → ∃ i, gymAction argmax (.discrete n s) none [] out = .choice (i : ℕ) ∧ ∃ y, out[i]? = some y ∧ ∀ x ∈ out, x ≤ y) ∧
    (∀ low high, low.length = out.length → high.length = out.length → (∀ (i : ℕ) (x l h : K), out[i]? = some x → low[i]? = some l → high[i]? = some h → l ≤ x ∧ x ≤ h) →
      gymAction argmax (.box low high) none [] out = .vector out) := by
  refine ⟨fun n s hne => ⟨argmax out, rfl, _, List.getElem?_eq_getElem (ha.lt out hne), fun x hx => ha.ge out x _ (List.getElem?_eq_getElem (ha.lt out hne)) hx⟩, fun low high h1 h2 h3 => ?_⟩
  simp only [gymAction, Act.vector.injEq]
  apply List.ext_getElem?
  intro i
  by_cases hi : i < out.length
  · have hl : low[i]? = some low[i] := List.getElem?_eq_getElem (by omega)
    have hh : high[i]? = some high[i] := List.getElem?_eq_getElem (by omega)
    have hx : out[i]? = some out[i] := List.getElem?_eq_getElem hi
    obtain ⟨a, b⟩ := h3 i _ _ _ hx hl hh
    rw [clip_get low high out i _ _ _ hx hl hh, hx, max_eq_left a, min_eq_left b]
  · rw [List.getElem?_eq_none (l := out) (by omega), List.getElem?_eq_none (by simp [clip]; omega)]

omit [IsStrictOrderedRing K] in
/-- **C119 (noise of `GymNE`).** The noise added to each output is the given standard deviation times a standard normal draw: the action is that of the perturbed output. -/
theorem C119_noise_partial (argmax : List K → ℕ) (space : Space K) (s : K) (draws out : List K) :
    gymAction argmax space (some s) draws out = gymAction argmax space none [] (List.zipWith (fun x z => x + s * z) out draws) := by
  simp [gymAction]

/-- **C119 (violated: noise of `VecGymNE`).** The noise of the vectorised problem is never negative, whatever the draws of `torch.rand_like` in [0, 1): with one output and unlimited box, the action is at
least the output. Gaussian noise would be negative half of the time. -/
theorem C119_violated_noise (argmax : List K → ℕ) (s : K) (hs : 0 < s) (u : K) (hu : 0 ≤ u ∧ u < 1) (x big : K) (hb : |x| + s ≤ big) :
    ∃ y, vecAction argmax (.box [-big] [big]) (some s) [u] [x] = .vector [y] ∧ x ≤ y ∧ y < x + s := by
  have h1 : u * s < s := by nlinarith
  have h2 : 0 ≤ u * s := mul_nonneg hu.1 hs.le
  have h3 := le_abs_self x
  have h4 := neg_abs_le x
  refine ⟨x + u * s, ?_, by linarith, by linarith⟩
  simp only [vecAction, clip, List.zipWith_cons_cons, List.zipWith_nil_left, Act.vector.injEq, List.cons.injEq, and_true]
  rw [max_eq_left (by linarith), min_eq_left (by linarith)]

omit [IsStrictOrderedRing K] in
/-- **C119 (violated: discrete spaces not starting at 0).** For the space {1, 2} an output which prefers the first action sends 0. -/
theorem C119_violated_start (argmax : List K → ℕ) (out : List K) (h : argmax out = 0) (noise : Option K) (hn : noise = none) :
    ¬ Legal (.discrete 2 1) (gymAction argmax (.discrete 2 1) noise [] out) ∧ ¬ Legal (.discrete 2 1) (vecAction argmax (.discrete 2 1) noise [] out) := by
  subst hn
  simp [gymAction, vecAction, Legal, h]

/-! ### Answers -/

variable {O R I : Type}

/-- **C119 (both APIs, one environment).** The episode is over exactly if the environment says so: the flag of the old API, or one of the two flags of the new one. Observation, reward and info are passed
on. Anything else is refused. -/
theorem C119_answers (o : O) (r : R) (d t u : Flag K) (i : I) :
    (takeStep (.old o r d i) = .ok (o, r, d, i)) ∧
    (∃ f, takeStep (.new o r t u i) = .ok (o, r, f, i) ∧ (f.truth = true ↔ t.truth = true ∨ u.truth = true)) ∧
    (∀ n, takeStep (StepRet.tuple n : StepRet O R (Flag K) I) = .error .valueError) ∧ takeStep (StepRet.other : StepRet O R (Flag K) I) = .error .typeError := by
  refine ⟨rfl, ⟨_, rfl, ?_⟩, fun _ => rfl, rfl⟩
  cases h : t.truth <;> simp [h]

/-- **C119 (both APIs, vectorised).** In the vectorised wrapper the flag of each sub-environment is set exactly if one of its flags is; an environment of the new API and one of the old API which combines the
flags itself are indistinguishable. Tuples of another length and other objects are refused. -/
theorem C119_vector_answers (o : O) (r : R) (t u : List (Flag K)) (i : I) (hl : t.length = u.length) :
    ∃ f, wrapperStep (.new o r t u i) = .ok (o, r, f, i) ∧ f.length = t.length ∧
      (∀ (k : ℕ) (a b : Flag K), t[k]? = some a → u[k]? = some b → f[k]? = some (a.convert || b.convert)) ∧
      wrapperStep (.old o r (f.map (Flag.bool (K := K))) i) = .ok (o, r, f, i) ∧
      (∀ n, wrapperStep (StepRet.tuple n : StepRet O R (List (Flag K)) I) = .error .valueError) ∧
      wrapperStep (StepRet.other : StepRet O R (List (Flag K)) I) = .error .typeError := by
  refine ⟨_, rfl, by simp [hl], fun k a b ha hb => by simp [List.getElem?_zipWith, ha, hb], ?_, fun _ => rfl, rfl⟩
  simp only [wrapperStep, List.map_map]
  congr 1
  rw [show (Flag.convert ∘ Flag.bool (K := K) : Bool → Bool) = id from rfl, List.map_id]

/-- **C119 (flags as numbers).** Floating point flags 0 and 1 mean false and true, as do integers; rounding errors up to one ten-thousandth in either direction do not count as true, everything beyond does. For a
single environment every number but zero is true. -/
theorem C119_numeric_flags : Flag.convert (.float (0 : K)) = false ∧ Flag.convert (.float (1 : K)) = true ∧ (∀ n : Int, Flag.convert (.int n : Flag K) = decide (n ≠ 0)) ∧
    (∀ x : K, Flag.convert (.float x) = false ↔ -(1 / 10000) ≤ x ∧ x ≤ 1 / 10000) ∧
    (∀ x : K, Flag.truth (.float x) = false ↔ x = 0) ∧ (∀ n : Int, Flag.truth (.int n : Flag K) = false ↔ n = 0) ∧ ∀ b, Flag.truth (.bool b : Flag K) = b := by
  refine ⟨by simp [Flag.convert], ?_, fun _ => rfl, fun x => by simp only [Flag.convert, decide_eq_false_iff_not, gt_iff_lt, not_lt, abs_le],
    fun x => by simp [Flag.truth], fun n => by simp [Flag.truth], fun b => rfl⟩
  have : (1 : K) / 10000 < 1 := by
    rw [div_lt_one (by norm_num)]; norm_num
  simpa [Flag.convert] using this

/-- **C119 (reset).** Both APIs give the initial observation. -/
theorem C119_reset (o : O) (i : I) : wrapperReset (.obs o : ResetRet O I) = .ok o ∧ wrapperReset (.pair o i) = .ok o ∧ resetEnv (.obs o : ResetRet O I) = some o ∧ resetEnv (.pair o i) = some o :=
  ⟨rfl, rfl, rfl, rfl⟩

/-- **C119 (reset first).** In every sequence of calls, a step of the wrapped vectorised environment is refused with a ValueError, without reaching the environment, exactly if no reset came before. -/
theorem C119_reset_first (cs : List Call) : ∀ (w : Wrapper) (k : ℕ) (c : Call), cs[k]? = some c →
    (calls w cs).1[k]? = some (if c = .step ∧ w.known = false ∧ .reset ∉ cs.take k then .error .valueError else .ok ()) := by
  induction cs with
  | nil => intro w k c h; simp at h
  | cons a cs ih =>
    intro w k c h
    cases k with
    | zero =>
      simp only [List.getElem?_cons_zero, Option.some.injEq] at h
      subst h
      obtain ⟨kn, n⟩ := w
      cases a <;> cases kn <;> simp [calls, call]
    | succ k =>
      simp only [List.getElem?_cons_succ] at h
      have := ih (call w a).state k c h
      simp only [calls, List.getElem?_cons_succ, this, List.take_succ_cons, List.mem_cons, not_or]
      obtain ⟨kn, n⟩ := w
      cases a <;> cases kn <;> simp [call]

/-- Refused steps do not reach the environment: the calls which reached it are those which succeeded. -/
theorem C119_refused_not_forwarded (cs : List Call) : ∀ w : Wrapper, (calls w cs).2.calls = w.calls + ((calls w cs).1.filter fun r => r.isOk).length := by
  induction cs with
  | nil => intro w; rfl
  | cons a cs ih =>
    intro w
    have := ih (call w a).state
    obtain ⟨kn, n⟩ := w
    cases a <;> cases kn <;> simp [calls, call, Except.isOk, Except.toBool, this] at this ⊢ <;> omega

/-! ### Examples -/

/-- First position of a greatest entry. -/
def firstMax : List ℚ → ℕ
  | [] => 0
  | [_] => 0
  | x :: y :: l => if x ≥ (y :: l).getD (firstMax (y :: l)) y then 0 else firstMax (y :: l) + 1

example : gymAction firstMax (.box [-1, -1] [1, 1]) (some (1 / 2)) [-2, 4] [1 / 2, 0] = .vector [-1 / 2, 1] := by decide +kernel
example : gymAction firstMax (.discrete 3 0) none [] [1, 5, 2] = .choice 1 := by decide +kernel
example : (Space.box [-1, -1] [(1 : ℚ), 1]).Sound := by
  refine ⟨rfl, fun i l h hl hh => ?_⟩
  match i with
  | 0 => simp at hl hh; subst hl hh; norm_num
  | 1 => simp at hl hh; subst hl hh; norm_num
  | n + 2 => simp at hl
example : ((calls {} [.step, .reset, .step]).1.map fun r => r.isOk) = [false, true, true] := rfl

end

/-- **C119 (violated: mean of the noise of `VecGymNE`).** The average of the noise over the uniform draws is half of the given standard deviation, not 0. -/
theorem C119_violated_noise_mean (s : ℝ) (hs : 0 < s) : ∫ u in (0 : ℝ)..1, u * s = s / 2 ∧ s / 2 ≠ 0 := by
  refine ⟨?_, by positivity⟩
  rw [intervalIntegral.integral_mul_const, integral_id]; ring

end EvoTorch.EnvStep
