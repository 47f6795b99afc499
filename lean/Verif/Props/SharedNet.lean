import Verif.Model.SharedNet
import Mathlib.Tactic.Common
import Mathlib.Algebra.Field.Rat
import Mathlib.Analysis.SpecialFunctions.Trigonometric.Basic
/-!
C158: the solutions which a neuroevolution problem evaluates with its one network do not influence one another, and evaluating leaves no traces in the networks of the user.
-/
namespace EvoTorch.SharedNet
open EvoTorch GymRun

variable {P W V O A X Hid E G K : Type}

/-- What the outputs of the network in this mode depend on, apart from its parameters, is `φ` of what it holds, and a call in this mode leaves it as it was. Examples: a network which holds nothing; with
batch normalisation in the evaluation mode (`φ` are its buffers) and in the training mode (nothing); with dropout in the evaluation mode (nothing). -/
structure Steady (f : Forward P W O A Hid) (training : Bool) (φ : W → V) : Prop where
  out : ∀ w w' p o h, φ w = φ w' → (f training w p o h).2 = (f training w' p o h).2
  keeps : ∀ w p o h, φ (f training w p o h).1 = φ w

/-- Both nothing, or both something that is related. -/
def Agree {α β : Type} (R : α → β → Prop) : Option α → Option β → Prop
  | none, none => True
  | some a, some b => R a b
  | _, _ => False

/-! ### GymNE -/

theorem loop_steady [Field K] (env : Env E O A K) (f : Forward P W O A Hid) (φ : W → V) (hf : Steady f false φ) (noise : G → A → G × A) (hn : ∀ g g' a, (noise g a).2 = (noise g' a).2)
    (c : Settings O K) (hc : c.norm = false) (update : Bool) (dec : K) (fuel : ℕ) : ∀ (t : ℕ) (acc : K) (e : E) (h h' : Pol P W Hid) (o : O) (s s' : St E O G (Pol P W Hid)),
    h.obj.params = h'.obj.params → φ h.obj.own = φ h'.obj.own → h.hidden = h'.hidden → h.obj.training = false → h'.obj.training = false →
    Agree (fun r r' => r.2 = r'.2 ∧ r.1.pol.obj.params = h.obj.params ∧ φ r.1.pol.obj.own = φ h.obj.own ∧ r.1.pol.obj.training = false ∧ r'.1.pol.obj.params = h.obj.params ∧ φ r'.1.pol.obj.own = φ h.obj.own ∧ r'.1.pol.obj.training = false)
      (loop env (policy f noise) c update dec fuel t acc e h o s)
      (loop env (policy f noise) c update dec fuel t acc e h' o s') := by
  induction fuel with
  | zero => intro t acc e h h' o s s' _ _ _ _ _; simp [loop, Agree]
  | succ fuel ih =>
    intro t acc e h h' o s s' h1 h2 h3 h4 h5
    have hout : (f false h.obj.own h.obj.params o h.hidden).2 = (f false h'.obj.own h'.obj.params o h'.hidden).2 := by rw [← h1, ← h3]; exact hf.out _ _ _ _ _ h2
    have ha : ((policy f noise).act h o).2 = ((policy f noise).act h' o).2 := by simp [policy, h4, h5, hout]
    have hb : ((policy f noise).noise s.gen ((policy f noise).act h o).2).2 = ((policy f noise).noise s'.gen ((policy f noise).act h' o).2).2 := by rw [ha]; exact hn _ _ _
    have k : ∀ g : Pol P W Hid, g.obj.training = false → ((policy f noise).act g o).1.obj.params = g.obj.params ∧ φ ((policy f noise).act g o).1.obj.own = φ g.obj.own ∧
        ((policy f noise).act g o).1.obj.training = false ∧ ((policy f noise).act g o).1.hidden = (f false g.obj.own g.obj.params o g.hidden).2.2 := by
      intro g hg
      simp [policy, hg, hf.keeps]
    obtain ⟨k1, k2, k3, k4⟩ := k h h4
    obtain ⟨m1, m2, m3, m4⟩ := k h' h5
    simp only [loop, normalizeObs, hc, Bool.false_eq_true, if_false]
    rw [hb]
    cases over c (env.step e ((policy f noise).noise s'.gen ((policy f noise).act h' o).2).2).2.2.2 (t + 1)
    rotate_left
    · exact ⟨rfl, k1, k2, k3, m1.trans h1.symm, m2.trans h2.symm, m3⟩
    · have := ih (t + 1) (acc + ((env.step e ((policy f noise).noise s'.gen ((policy f noise).act h' o).2).2).2.2.1 - dec)) (env.step e ((policy f noise).noise s'.gen ((policy f noise).act h' o).2).2).1
        ((policy f noise).act h o).1 ((policy f noise).act h' o).1 (env.step e ((policy f noise).noise s'.gen ((policy f noise).act h' o).2).2).2.1
        { s with gen := ((policy f noise).noise s.gen ((policy f noise).act h o).2).1, interactions := if update then s.interactions + 1 else s.interactions }
        { s' with gen := ((policy f noise).noise s'.gen ((policy f noise).act h' o).2).1, interactions := if update then s'.interactions + 1 else s'.interactions }
        (by rw [k1, m1, h1]) (by rw [k2, m2, h2]) (by rw [k4, m4, hout]) k3 m3
      rw [k1, k2] at this
      exact this

/-- Two states of a problem which agree in what matters: the parameters of the network, what its outputs depend on, and its mode. -/
structure Same (φ : W → V) (s s' : St E O G (Pol P W Hid)) : Prop where
  params : s.pol.obj.params = s'.pol.obj.params
  own : φ s.pol.obj.own = φ s'.pol.obj.own

theorem rollout_steady [Field K] (env : Env E O A K) (hreset : ∀ e e', env.reset e = env.reset e') (f : Forward P W O A Hid) (φ : W → V) (hf : Steady f false φ) (noise : G → A → G × A)
    (hn : ∀ g g' a, (noise g a).2 = (noise g' a).2) (c : Settings O K) (hc : c.norm = false) (fuel : ℕ) (update visualize : Bool) (dec : Option K) (s s' : St E O G (Pol P W Hid)) (hs : Same φ s s')
    (h4 : s.pol.obj.training = false) (h5 : s'.pol.obj.training = false) :
    Agree (fun r r' => r.2 = r'.2 ∧ Same φ r.1 s ∧ Same φ r'.1 s ∧ r.1.pol.obj.training = false ∧ r'.1.pol.obj.training = false)
      (rollout env (policy f noise) c fuel update visualize dec s)
      (rollout env (policy f noise) c fuel update visualize dec s') := by
  have hl := loop_steady env f φ hf noise hn c hc update (dec.getD c.decrease) fuel 0 0 (env.reset env.fresh).1 ((policy f noise).reset s.pol) ((policy f noise).reset s'.pol) (env.reset env.fresh).2 s s'
    hs.params hs.own rfl h4 h5
  simp only [rollout, normalizeObs, hc, Bool.false_eq_true, if_false, hreset _ env.fresh]
  revert hl
  cases loop env (policy f noise) c update (dec.getD c.decrease) fuel 0 0 (env.reset env.fresh).1 ((policy f noise).reset s.pol) (env.reset env.fresh).2 s <;>
    cases loop env (policy f noise) c update (dec.getD c.decrease) fuel 0 0 (env.reset env.fresh).1 ((policy f noise).reset s'.pol) (env.reset env.fresh).2 s'
  · intro hl; trivial
  · intro hl; exact hl
  · intro hl; exact hl
  · rintro ⟨a, b, d, e, b', d', e'⟩
    exact ⟨by simp only [a], ⟨b, d⟩, ⟨b', d'⟩, e, e'⟩

theorem Same.symm {φ : W → V} {s s' : St E O G (Pol P W Hid)} (h : Same φ s s') : Same φ s' s := ⟨h.params.symm, h.own.symm⟩
theorem Same.trans {φ : W → V} {s s' s'' : St E O G (Pol P W Hid)} (h : Same φ s s') (h' : Same φ s' s'') : Same φ s s'' := ⟨h.params.trans h'.params, h.own.trans h'.own⟩

theorem rollouts_steady [Field K] (env : Env E O A K) (hreset : ∀ e e', env.reset e = env.reset e') (f : Forward P W O A Hid) (φ : W → V) (hf : Steady f false φ) (noise : G → A → G × A)
    (hn : ∀ g g' a, (noise g a).2 = (noise g' a).2) (c : Settings O K) (hc : c.norm = false) (fuel : ℕ) (update visualize : Bool) (dec : Option K) (n : ℕ) :
    ∀ (s s' : St E O G (Pol P W Hid)), Same φ s s' → s.pol.obj.training = false → s'.pol.obj.training = false →
    Agree (fun r r' => r.2 = r'.2 ∧ Same φ r.1 s ∧ Same φ r'.1 s)
      (rollouts env (policy f noise) c fuel update visualize dec n s)
      (rollouts env (policy f noise) c fuel update visualize dec n s') := by
  induction n with
  | zero => intro s s' hs _ _; exact ⟨rfl, ⟨rfl, rfl⟩, hs.symm⟩
  | succ n ih =>
    intro s s' hs h4 h5
    have hr := rollout_steady env hreset f φ hf noise hn c hc fuel update visualize dec s s' hs h4 h5
    simp only [rollouts]
    revert hr
    cases rollout env (policy f noise) c fuel update visualize dec s <;> cases rollout env (policy f noise) c fuel update visualize dec s'
    · intro _; trivial
    · intro hr; exact hr.elim
    · intro hr; exact hr.elim
    · rename_i r r'
      rintro ⟨a, b, d, e, e'⟩
      have hi := ih r.1 r'.1 (b.trans d.symm) e e'
      simp only [Option.bind_some]
      revert hi
      cases rollouts env (policy f noise) c fuel update visualize dec n r.1 <;> cases rollouts env (policy f noise) c fuel update visualize dec n r'.1
      · intro _; trivial
      · intro hr; exact hr
      · intro hr; exact hr
      · rintro ⟨u, v, w⟩
        exact ⟨by simp only; rw [a, u], v.trans b, w.trans b⟩

theorem evaluate_steady [Field K] (env : Env E O A K) (hreset : ∀ e e', env.reset e = env.reset e') (f : Forward P W O A Hid) (φ : W → V) (hf : Steady f false φ) (noise : G → A → G × A)
    (hn : ∀ g g' a, (noise g a).2 = (noise g' a).2) (c : Settings O K) (hc : c.norm = false) (fuel : ℕ) (x : P) (s s' : St E O G (Pol P W Hid)) (hs : φ s.pol.obj.own = φ s'.pol.obj.own) :
    Agree (fun r r' => r.2 = r'.2 ∧ φ r.1.pol.obj.own = φ s.pol.obj.own ∧ φ r'.1.pol.obj.own = φ s.pol.obj.own)
      (evaluateSolution env f noise c fuel x s)
      (evaluateSolution env f noise c fuel x s') := by
  have h := rollouts_steady env hreset f φ hf noise hn c hc fuel true false (some c.decrease) c.numEpisodes
    { s with pol := (policy f noise).mode false (fill x s.pol) } { s' with pol := (policy f noise).mode false (fill x s'.pol) } ⟨rfl, hs⟩ rfl rfl
  simp only [evaluateSolution, evaluate, run, Option.getD_some]
  revert h
  cases rollouts env (policy f noise) c fuel true false (some c.decrease) c.numEpisodes { s with pol := (policy f noise).mode false (fill x s.pol) } <;>
    cases rollouts env (policy f noise) c fuel true false (some c.decrease) c.numEpisodes { s' with pol := (policy f noise).mode false (fill x s'.pol) }
  · intro _; trivial
  · intro h; exact h
  · intro h; exact h
  · rintro ⟨a, b, d⟩
    exact ⟨by simp only [a], b.own, d.own⟩

/-- C158, in part: a `GymNE` which neither normalises observations nor adds noise, in an environment where every episode starts alike, gives every solution of a batch the fitness which this solution gets
when it is evaluated alone, whatever was evaluated before it with the same network (and an evaluation does not end only if it would not end alone). The network may hold buffers, and may behave otherwise in
its training mode; it must not go on from one call to the next in its evaluation mode. (For a network which does, see `C158_violated_clock`.) -/
theorem C158_gym_partial [Field K] (env : Env E O A K) (hreset : ∀ e e', env.reset e = env.reset e') (f : Forward P W O A Hid) (φ : W → V) (hf : Steady f false φ) (noise : G → A → G × A)
    (hn : ∀ g a, (noise g a).2 = a) (c : Settings O K) (hc : c.norm = false) (fuel : ℕ) (xs : List P) (s : St E O G (Pol P W Hid)) :
    (evaluateAll env f noise c fuel xs s).map (·.2) = xs.mapM fun x => (evaluateSolution env f noise c fuel x s).map (·.2) := by
  have key : ∀ (xs : List P) (t : St E O G (Pol P W Hid)), φ s.pol.obj.own = φ t.pol.obj.own →
      (evaluateAll env f noise c fuel xs t).map (·.2) = xs.mapM fun x => (evaluateSolution env f noise c fuel x s).map (·.2) := by
    intro xs
    induction xs with
    | nil => intro t _; rfl
    | cons x xs ih =>
      intro t ht
      have h := evaluate_steady env hreset f φ hf noise (fun g g' a => by rw [hn, hn]) c hc fuel x s t ht
      simp only [evaluateAll, List.mapM_cons]
      revert h
      cases evaluateSolution env f noise c fuel x s <;> cases evaluateSolution env f noise c fuel x t
      · intro _; rfl
      · intro h; exact h.elim
      · intro h; exact h.elim
      · rename_i r r'
        rintro ⟨a, b, d⟩
        have hi := ih r'.1 d.symm
        simp only [Option.map_some, Option.bind_some, Option.map_map]
        rw [← hi, a]
        cases evaluateAll env f noise c fuel xs r'.1 <;> rfl
  exact key xs s rfl

/-- C158: what `run` returns does not depend on the mode in which the policy is. -/
theorem C158_mode_irrelevant [Field K] (env : Env E O A K) (f : Forward P W O A Hid) (noise : G → A → G × A) (c : Settings O K) (fuel : ℕ) (given : Obj P W) (b : Bool) (s : St E O G (Pol P W Hid)) :
    runGiven env f noise c fuel { given with training := b } s = runGiven env f noise c fuel given s := rfl

/-- C158 fails: `run` does not leave the mode of the user's policy as it was. Whatever it was, the policy is in its training mode afterwards. -/
theorem C158_violated_mode [Field K] (env : Env E O A K) (f : Forward P W O A Hid) (noise : G → A → G × A) (c : Settings O K) (fuel : ℕ) (given after : Obj P W) (s : St E O G (Pol P W Hid))
    (res : Except PyErr (Result K)) (hr : runGiven env f noise c fuel given s = some (after, res)) : after.training = true := by
  simp only [runGiven, Option.map_eq_some_iff] at hr
  obtain ⟨r, hr, h2⟩ := hr
  cases h2
  simp only [run, Option.map_eq_some_iff] at hr
  obtain ⟨q, _, rfl⟩ := hr
  rfl

/-! ### The clock of a LocomotorNet -/

/-- An environment with episodes of one step whose reward is the action. -/
def actEnv (K : Type) [Field K] : Env Unit K K K := ⟨(), fun _ => ((), 0), fun _ a => ((), 0, a, true)⟩

/-- A `LocomotorNet` (layers.py 554-568) with one input, one output and one sinusoid; it holds its time. -/
noncomputable def locomotor : Forward (ℝ × ℝ × ℝ × ℝ) ℕ ℝ ℝ Unit := fun _ t p x _ => (t + 1, p.1 * x + p.2.1 * Real.sin (p.2.2.1 * t + p.2.2.2), none)

/-- One episode per solution, nothing else. -/
def plain (K O : Type) [Field K] : Settings O K := ⟨false, fun _ x => x, 0, none, 1⟩

/-- C158 fails for a `LocomotorNet`, the library's own network for locomotion: `GymNE` resets the policy before an episode, but this does not reset the time of the network. The same solution evaluated twice,
in an environment without any randomness, gets the fitness 0 first and then 1. -/
theorem C158_violated_clock : ((evaluateAll (actEnv ℝ) locomotor (fun (g : Unit) a => (g, a)) (plain ℝ ℝ) 5 [(0, 1, Real.pi / 2, 0), (0, 1, Real.pi / 2, 0)]
    ⟨⟨⟨(0, 0, 0, 0), 0, true⟩, none⟩, none, [], [], 0, 0, ()⟩).map (·.2)) = some [.ok 0, .ok 1] := by
  simp [evaluateAll, evaluateSolution, evaluate, run, rollouts, rollout, loop, normalizeObs, over, plain, actEnv, policy, locomotor, fill, accumulate, Except.map]

/-! ### Exported networks -/

/-- A unit with dropout (probability one half): in the training mode a draw decides whether the output is zero or doubled; it holds the draws to come. -/
def dropout : Forward ℚ (ℕ → Bool) ℚ ℚ Unit := fun training w p x _ =>
  if training then (fun n => w (n + 1), if w 0 then 2 * (p * x) else 0, none) else (w, p * x, none)

theorem dropout_steady : Steady dropout false (fun _ => ()) := ⟨fun _ _ _ _ _ _ => rfl, fun _ _ _ _ => rfl⟩

/-- C158: after an evaluation, what is exported is in its training mode, whatever the mode of the network was before. -/
theorem C158_exported_training [Field K] (env : Env E O A K) (f : Forward P W O A Hid) (noise : G → A → G × A) (c : Settings O K) (fuel : ℕ) (x y : P) (s s' : St E O G (Pol P W Hid)) (res : Except PyErr K)
    (hr : evaluateSolution env f noise c fuel x s = some (s', res)) : (exportNet y s').2.training = true := by
  simp only [evaluateSolution, evaluate, Option.map_eq_some_iff] at hr
  obtain ⟨r, hr, h2⟩ := hr
  cases h2
  simp only [run, Option.map_eq_some_iff] at hr
  obtain ⟨q, _, rfl⟩ := hr
  rfl

/-- C158 fails: the exported network does not act as the network acted in the evaluation. An environment shows the observation 1 and rewards the action: with dropout the solution 3 has the fitness 3, for it
is evaluated in the evaluation mode; but the exported network answers 0 or 6. -/
theorem C158_violated_export (w : ℕ → Bool) : ∃ s', evaluateSolution ⟨(), fun _ => ((), 1), fun _ a => ((), 1, a, true)⟩ dropout (fun (g : Unit) a => (g, a)) (plain ℚ ℚ) 5 3
      ⟨⟨⟨0, w, true⟩, none⟩, none, [], [], 0, 0, ()⟩ = some (s', .ok 3) ∧ (acts dropout (exportNet 3 s').2 none [1] = [0] ∨ acts dropout (exportNet 3 s').2 none [1] = [6]) := by
  refine ⟨_, by simp [evaluateSolution, evaluate, run, rollouts, rollout, loop, normalizeObs, over, plain, policy, dropout, fill, accumulate, Except.map]; rfl, ?_⟩
  cases h : w 0
  · left; simp [acts, exportNet, fill, dropout, h]
  · right; simp [acts, exportNet, fill, dropout, h]; norm_num

/-! ### SupervisedNE -/

theorem loss_steady [Field K] (f : Forward P W O A Hid) (lossFn : A → X → K) (batches : List (O × X)) (training : Bool) (φ : W → V) (hf : Steady f training φ) :
    ∀ (bs : List (O × X)) (acc : K) (m m' : Obj P W), m.training = training → m'.training = training → m.params = m'.params → φ m.own = φ m'.own →
      (loss f lossFn batches bs acc m).2 = (loss f lossFn batches bs acc m').2 ∧ φ (loss f lossFn batches bs acc m).1.own = φ m.own ∧ (loss f lossFn batches bs acc m).1.training = training := by
  intro bs
  induction bs with
  | nil => intro acc m m' h1 _ _ _; exact ⟨rfl, rfl, h1⟩
  | cons b bs ih =>
    intro acc m m' h1 h2 h3 h4
    have ho : (f m.training m.own m.params b.1 none).2 = (f m'.training m'.own m'.params b.1 none).2 := by rw [h1, h2, h3]; exact hf.out _ _ _ _ _ h4
    have k1 : φ (f m.training m.own m.params b.1 none).1 = φ m.own := by rw [h1]; exact hf.keeps _ _ _ _
    have k2 : φ (f m'.training m'.own m'.params b.1 none).1 = φ m'.own := by rw [h2]; exact hf.keeps _ _ _ _
    have := ih (acc + lossFn (f m.training m.own m.params b.1 none).2.1 b.2 / (batches.length : K)) { m with own := (f m.training m.own m.params b.1 none).1 }
      { m' with own := (f m'.training m'.own m'.params b.1 none).1 } h1 h2 h3 (by rw [k1, k2]; exact h4)
    simp only [loss]
    rw [← ho]
    exact ⟨this.1, this.2.1.trans k1, this.2.2⟩

/-- The loss of a network on minibatches: the mean of the losses. -/
def meanLoss [Field K] (g : O → A) (lossFn : A → X → K) (batches : List (O × X)) : K := (batches.map fun b => lossFn (g b.1) b.2 / (batches.length : K)).sum

theorem loss_mean [Field K] (f : Forward P W O A Hid) (lossFn : A → X → K) (batches : List (O × X)) (training : Bool) (φ : W → V) (hf : Steady f training φ) (w : W) (x : P) :
    ∀ (bs : List (O × X)) (acc : K) (m : Obj P W), m.training = training → m.params = x → φ m.own = φ w →
      (loss f lossFn batches bs acc m).2 = acc + (bs.map fun b => lossFn (f training w x b.1 none).2.1 b.2 / (batches.length : K)).sum := by
  intro bs
  induction bs with
  | nil => intro acc m _ _ _; simp [loss]
  | cons b bs ih =>
    intro acc m h1 h2 h3
    have ho : (f m.training m.own m.params b.1 none).2 = (f training w x b.1 none).2 := by rw [h1, h2]; exact hf.out _ _ _ _ _ h3
    simp only [loss]
    have k := ih (acc + lossFn (f m.training m.own m.params b.1 none).2.1 b.2 / (batches.length : K)) { m with own := (f m.training m.own m.params b.1 none).1 } h1 h2
      (by show φ (f m.training m.own m.params b.1 none).1 = φ w; rw [h1]; exact (hf.keeps _ _ _ _).trans h3)
    rw [k, ho]
    simp only [List.map_cons, List.sum_cons, add_assoc]

/-- C158: `SupervisedNE` with common minibatches scores every solution by its mean loss on them, with the network in the mode which the user gave it, independently of the solutions before; provided that the
network does not go on from one call to the next in this mode. -/
theorem C158_supervised [Field K] (f : Forward P W O A Hid) (lossFn : A → X → K) (batches : List (O × X)) (φ : W → V) (net : Obj P W) (hf : Steady f net.training φ) (xs : List P) :
    (supervised f lossFn batches xs net).2 = xs.map fun x => meanLoss (fun o => (f net.training net.own x o none).2.1) lossFn batches := by
  have key : ∀ (xs : List P) (m : Obj P W), m.training = net.training → φ m.own = φ net.own →
      (supervised f lossFn batches xs m).2 = xs.map fun x => meanLoss (fun o => (f net.training net.own x o none).2.1) lossFn batches := by
    intro xs
    induction xs with
    | nil => intro m _ _; rfl
    | cons x xs ih =>
      intro m h1 h2
      simp only [supervised, List.map_cons]
      have hl := loss_steady f lossFn batches net.training φ hf batches 0 { m with params := x } { m with params := x } h1 h1 rfl rfl
      rw [ih _ hl.2.2 (hl.2.1.trans h2), loss_mean f lossFn batches net.training φ hf net.own x batches 0 { m with params := x } h1 rfl h2]
      simp [meanLoss]
  exact key xs net rfl rfl

/-! ### The module which the user gave -/

theorem parameterizeAll_other (i j : ℕ) (hj : j ≠ i) (xs : List P) : ∀ m : Objs P W, (parameterizeAll m i xs).at_ j = m.at_ j := by
  induction xs with
  | nil => intro m; rfl
  | cons x xs ih => intro m; simp only [parameterizeAll]; rw [ih]; simp [parameterize, hj]

theorem parameterizeAll_last (i : ℕ) (xs : List P) (x : P) : ∀ m : Objs P W, ((parameterizeAll m i (xs ++ [x])).at_ i).params = x := by
  induction xs with
  | nil => intro m; simp [parameterizeAll, parameterize]
  | cons y xs ih => intro m; exact ih _

/-- C158, in part: if the network is given by a string or a function, evaluating solutions leaves all the modules which the user has as they are. -/
theorem C158_given_partial (m : Objs P W) (net : Obj P W) (xs : List P) (j : ℕ) (hj : j < m.next) :
    (parameterizeAll (instantiate m (.maker net)).1 (instantiate m (.maker net)).2 xs).at_ j = m.at_ j := by
  simp only [instantiate]
  rw [parameterizeAll_other _ _ (by omega)]
  simp [show j ≠ m.next by omega]

/-- C158 fails: a module given as the network is not left alone; it ends with the parameters of the solution evaluated last. -/
theorem C158_violated_given (m : Objs P W) (i : ℕ) (xs : List P) (x : P) :
    ((parameterizeAll (instantiate m (.module i)).1 (instantiate m (.module i)).2 (xs ++ [x])).at_ i).params = x := parameterizeAll_last i xs x m

/-! ### The hypotheses can be met -/

example : ((evaluateAll (actEnv ℚ) dropout (fun (g : Unit) a => (g, a)) (plain ℚ ℚ) 5 [1, 2] ⟨⟨⟨0, fun _ => true, true⟩, none⟩, none, [], [], 0, 0, ()⟩).map (·.2)) = some [.ok 0, .ok 0] := by
  simp [evaluateAll, evaluateSolution, evaluate, run, rollouts, rollout, loop, normalizeObs, over, plain, actEnv, policy, dropout, fill, accumulate, Except.map]
example : runGiven (actEnv ℚ) (fun _ w p o (h : Option Unit) => (w, p * o, h)) (fun (g : Unit) a => (g, a)) (plain ℚ ℚ) 5 ⟨(1 : ℚ), (), false⟩ ⟨⟨⟨0, (), true⟩, none⟩, none, [], [], 0, 0, ()⟩ =
    some (⟨1, (), true⟩, .ok ⟨0, 1⟩) := by
  simp [runGiven, run, rollouts, rollout, loop, normalizeObs, over, plain, actEnv, policy, accumulate]
example : (supervised dropout (fun a y => (a - y) * (a - y)) [((1 : ℚ), 2), (2, 2)] [1, 2] ⟨0, fun _ => true, false⟩).2 = [(1 / 2 : ℚ), 2] := by
  simp [supervised, loss, dropout]; norm_num

end EvoTorch.SharedNet
