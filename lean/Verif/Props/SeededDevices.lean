import Verif.Model.SeededDevices
import Verif.Props.FitnessDevice
/-!
C167: seeded problems, devices and actors.
-/
namespace EvoTorch.SeededDevices
open EvoTorch EvoTorch.FitnessDevice

/-! ### Specification -/

/-- The problems that a user can meet: newly made ones, seeded anew, used, or copied into an actor. -/
inductive Reach (cuda : Bool) : Prob → Prop
  | new (device numGpusAll kind definesSeed seed) : Reach cuda (new device numGpusAll kind definesSeed seed)
  | op (p o) : Reach cuda p → Reach cuda (apply cuda p o)
  | actor (p q i s) : Reach cuda p → startActor p i s = .ok q → Reach cuda q

/-- The documented device of the computations of a problem. A fitness function is called on the device it asks for, a network is on the device of the problem, or in an actor on its
auxiliary device, `GymNE` always uses the cpu, and `VecGymNE` the device of its simulator. -/
def Computes (cuda : Bool) (p : Prob) (d : Device) : Prop :=
  match p.kind with
  | .plain F => ∃ aux, IsAux cuda p.conf aux ∧ d = (wanted aux (F.objective.toList ++ [F.evaluateBatch, F.evaluate])).getD p.conf.device
  | .ne => (p.conf.actorIndex = none → d = p.conf.device) ∧ (p.conf.actorIndex ≠ none → IsAux cuda p.conf d)
  | .gym => d = ⟨"cpu", none⟩
  | .vecGym s => d = s

/-- A `VecGymNE` which has not evaluated anything yet and does not know its simulator. -/
def Prob.unnoticed (p : Prob) : Bool := match p.kind with
  | .vecGym _ => p.noticed.isNone
  | _ => false

/-- Nobody has decorated `_evaluate_all` (see `C106_violated_evaluate_all`). -/
def Plain (p : Prob) : Prop := ∀ F, p.kind = .plain F → wish F.evaluateAll = .nothing

/-! ### Invariants -/

/-- What always holds: an own generator is on the device of the problem, and only `VecGymNE` notices a device, that of its simulator. -/
structure Inv (p : Prob) : Prop where
  gen : ∀ g, p.generator = some g → g = p.conf.device
  sim : ∀ d, p.noticed = some d → p.kind = .vecGym d

theorem manualSeed_inv {p : Prob} (h : Inv p) (s : Option Nat) : Inv (manualSeed p s) := by
  cases s with
  | none => exact ⟨by simp [manualSeed], h.sim⟩
  | some s =>
    refine ⟨fun g hg => ?_, h.sim⟩
    cases hp : p.generator with
    | none => simpa [manualSeed, hp] using hg.symm
    | some g' =>
      simp only [manualSeed, hp, Option.getD_some, Option.some.injEq] at hg ⊢
      rw [← hg]; exact h.gen _ hp

theorem evaluate_inv {p : Prob} (h : Inv p) (cuda : Bool) (d : Device) : Inv (evaluate cuda p d).state := by
  unfold evaluate
  cases hk : p.kind with
  | plain F => dsimp only; cases deviceOfFitness (auxDevice cuda p.conf) F <;> exact h
  | ne => exact h
  | gym => exact h
  | vecGym s => exact ⟨h.gen, fun d hd => by simp at hd; simp [hd]⟩

theorem gradients_inv {p : Prob} (h : Inv p) (cuda : Bool) : Inv (gradients cuda p).state := by
  unfold gradients
  split
  · exact h
  · split
    · exact h
    · exact evaluate_inv h _ _

theorem localStep_inv {p : Prob} (h : Inv p) (cuda : Bool) : Inv (localStep cuda p).state := by
  unfold localStep
  split
  · exact h
  · exact evaluate_inv h _ _

theorem reach_inv {cuda : Bool} {p : Prob} (h : Reach cuda p) : Inv p := by
  induction h with
  | new device a kind ds seed => exact manualSeed_inv ⟨by simp, by simp⟩ seed
  | op p o _ ih =>
    cases o with
    | seed s => exact manualSeed_inv ih s
    | request => exact gradients_inv ih cuda
    | step => exact localStep_inv ih cuda
  | actor p q i s _ hq ih =>
    have hi : Inv { p with conf := { p.conf with actorIndex := some i } } := ⟨ih.gen, ih.sim⟩
    unfold startActor at hq
    simp only at hq
    split at hq
    · split at hq
      · rw [← Except.ok.inj hq]; exact manualSeed_inv hi _
      · simp at hq
    · rw [← Except.ok.inj hq]; exact hi

theorem own_draw {p : Prob} (h : Inv p) : draw p.conf.device p.generator = .ok () := by
  unfold draw
  cases hg : p.generator with
  | none => rfl
  | some g => simp [h.gen g hg]

theorem computes_iff (cuda : Bool) (p : Prob) (h : Plain p) (b e : Device) (hb : ∀ F, p.kind = .plain F → b = p.conf.device ∨ gradDevice cuda p = .ok b) :
    (evaluate cuda p b).result = .ok e → Computes cuda p e := by
  intro he
  unfold evaluate at he
  unfold Computes
  cases hk : p.kind with
  | plain F =>
    refine ⟨_, C106_aux_device cuda p.conf, ?_⟩
    simp only [hk, deviceOfFitness_eq _ F (h F hk)] at he
    have he := Except.ok.inj he
    rcases hb F hk with rfl | hg
    · exact he.symm
    · simp only [gradDevice, hk, deviceOfFitness_eq _ F (h F hk), bind, Except.bind] at hg
      have hg := Except.ok.inj hg
      rw [← he]
      revert hg
      cases wanted (auxDevice cuda p.conf) (F.objective.toList ++ [F.evaluateBatch, F.evaluate]) with
      | none => intro hg; simpa using hg.symm
      | some d => intro _; rfl
  | ne =>
    simp only [hk, networkDevice, Option.getD_some] at he
    have he := Except.ok.inj he
    constructor
    · intro ha
      rw [← he]; simp only [ha, Option.isNone_none, if_true]
      split
      · rename_i hd; exact hd.symm
      · rfl
    · intro ha
      rw [← he]
      have : p.conf.actorIndex.isNone = false := by cases hx : p.conf.actorIndex with | none => exact absurd hx ha | some _ => rfl
      simp only [this, Bool.false_eq_true, if_false]
      exact C106_aux_device cuda p.conf
  | gym =>
    simp only [hk, networkDevice, Option.getD_some] at he
    exact (Except.ok.inj he).symm
  | vecGym s =>
    simp only [hk] at he
    exact (Except.ok.inj he).symm

theorem evaluate_ok (cuda : Bool) (p : Prob) (h : Plain p) (b : Device) : ∃ e, (evaluate cuda p b).result = .ok e := by
  unfold evaluate
  cases hk : p.kind with
  | plain F => simp only [deviceOfFitness_eq _ F (h F hk)]; exact ⟨_, rfl⟩
  | ne => exact ⟨_, rfl⟩
  | gym => exact ⟨_, rfl⟩
  | vecGym s => exact ⟨_, rfl⟩

/-- The temporary solutions of a request are made where they are evaluated, except by a `VecGymNE` which has not evaluated anything yet: on the cpu. -/
theorem gradDevice_ok (cuda : Bool) (p : Prob) (hi : Inv p) (h : Plain p) : ∃ d, gradDevice cuda p = .ok d ∧
    ∀ e, (evaluate cuda p d).result = .ok e → d = if p.unnoticed then ⟨"cpu", none⟩ else e := by
  unfold gradDevice evaluate
  cases hk : p.kind with
  | plain F =>
    simp only [deviceOfFitness_eq _ F (h F hk), bind, Except.bind]
    refine ⟨_, rfl, fun e he => ?_⟩
    have he := Except.ok.inj he
    rw [if_neg (by simp [Prob.unnoticed, hk]), ← he]
    cases wanted (auxDevice cuda p.conf) (F.objective.toList ++ [F.evaluateBatch, F.evaluate]) <;> rfl
  | ne =>
    refine ⟨_, rfl, fun e he => ?_⟩
    have he := Except.ok.inj he
    rw [if_neg (by simp [Prob.unnoticed, hk]), ← he]
    simp [networkDevice, hk]
  | gym =>
    refine ⟨_, rfl, fun e he => ?_⟩
    have he := Except.ok.inj he
    rw [if_neg (by simp [Prob.unnoticed, hk]), ← he]
    simp [networkDevice, hk]
  | vecGym s =>
    refine ⟨_, rfl, fun e he => ?_⟩
    have he := Except.ok.inj he
    cases hn : p.noticed with
    | none => simp [Prob.unnoticed, hk, hn]
    | some d =>
      have := hi.sim d hn
      rw [hk] at this
      injection this with this
      subst this
      simp [Prob.unnoticed, hk, hn, ← he]

/-! ### Theorems -/

/-- **C167.** Making solutions, and steps of a search that is not distributed, are never refused because of the generator, whatever has happened before, and the
evaluation takes place where it should. -/
theorem C167_local (cuda : Bool) (p : Prob) (hr : Reach cuda p) (h : Plain p) :
    generate p = .ok p.conf.device ∧
    ∃ e, (localStep cuda p).result = .ok ⟨p.conf.device, e, p.conf.device⟩ ∧ Computes cuda p e := by
  have hi := reach_inv hr
  constructor
  · simp [generate, own_draw hi, bind, Except.bind]
  · obtain ⟨e, he⟩ := evaluate_ok cuda p h p.conf.device
    refine ⟨e, ?_, computes_iff cuda p h _ e (fun _ _ => .inl rfl) he⟩
    simp [localStep, own_draw hi, he, Except.map]

/-- **C167**, gradients. Partial: a request for gradients is answered exactly if the problem has no generator of its own, or the temporary solutions are made on a device of the type of
the problem's device. Then the evaluation takes place where it should, and the gradients are on the device of the problem. Otherwise it is refused and changes nothing. -/
theorem C167_gradients_partial (cuda : Bool) (p : Prob) (hr : Reach cuda p) (h : Plain p) :
    ∃ e, Computes cuda p e ∧
      let d : Device := if p.unnoticed then ⟨"cpu", none⟩ else e
      (p.generator = none ∨ d.type = p.conf.device.type → (gradients cuda p).result = .ok ⟨d, e, p.conf.device⟩) ∧
      (¬ (p.generator = none ∨ d.type = p.conf.device.type) → gradients cuda p = ⟨p, .error .runtimeError⟩) := by
  have hi := reach_inv hr
  obtain ⟨d, hd, hde⟩ := gradDevice_ok cuda p hi h
  obtain ⟨e, he⟩ := evaluate_ok cuda p h d
  refine ⟨e, computes_iff cuda p h d e (fun _ _ => .inr hd) he, ?_⟩
  rw [← hde e he]
  intro d'
  show (p.generator = none ∨ d.type = _ → _) ∧ _
  have hs : sampleBatch p d = draw d p.generator := by
    simp [sampleBatch, generate, own_draw hi, bind, Except.bind]
  constructor
  · intro hc
    have : draw d p.generator = .ok () := by
      unfold draw
      cases hg : p.generator with
      | none => rfl
      | some g =>
        rcases hc with hc | hc
        · rw [hg] at hc; simp at hc
        · simp [hi.gen g hg, hc]
    simp only [gradients, hd, hs, this, he, Except.map]
    by_cases hx : d = p.conf.device
    · simp [hx, d']
    · simp [hx, d']
  · intro hc
    push Not at hc
    have : draw d p.generator = .error .runtimeError := by
      unfold draw
      cases hg : p.generator with
      | none => exact absurd hg hc.1
      | some g => simp only [hi.gen g hg]; rw [if_neg (fun hx => hc.2 hx.symm)]
    simp only [gradients, hd, hs, this]

/-- **C167**, actors. Partial: for a problem without its own generator, all actors are started, each with its own index, and otherwise with the same problem. -/
theorem C167_actors_partial (p : Prob) (n : Nat) (seeds : Nat → Nat) (h : p.generator = none) :
    startActors p n seeds = .ok ((List.range n).map fun i => { p with conf := { p.conf with actorIndex := some i } }) := by
  have : ∀ l : List Nat, (l.mapM fun i => startActor p i (seeds i)) = .ok (l.map fun i => { p with conf := { p.conf with actorIndex := some i } }) := by
    intro l
    induction l with
    | nil => rfl
    | cons i l ih =>
      simp only [List.mapM_cons, ih, List.map_cons]
      simp [startActor, h]; rfl
  exact this _

/-- A problem on the cpu with a fitness function that wants the auxiliary device. -/
def auxProblem : Prob := new ⟨"cpu", none⟩ false (.plain ⟨some (onAuxDevice {}), {}, {}, {}, false⟩) false (some 1)

/-- **C167 violated.** With a GPU, a seeded problem whose fitness function is decorated with `on_aux_device` makes steps, but refuses requests for gradients (hence all distributed
searches): the generator is on the cpu, the solutions are not. -/
theorem C167_violated_aux_device :
    Reach true auxProblem ∧ Plain auxProblem ∧ (localStep true auxProblem).result = .ok ⟨⟨"cpu", none⟩, ⟨"cuda", none⟩, ⟨"cpu", none⟩⟩ ∧
      (gradients true auxProblem).result = .error .runtimeError := by
  refine ⟨.new .., ?_, rfl, rfl⟩
  intro F hF
  injection hF with hF
  rw [← hF]; rfl

/-- A seeded `VecGymNE` on the cpu, with a simulator on a GPU. -/
def vecProblem : Prob := new ⟨"cpu", none⟩ false (.vecGym ⟨"cuda", some 0⟩) false (some 1)

/-- **C167 violated.** A seeded `VecGymNE` with a simulator on a GPU answers its first request for gradients and refuses the second one. -/
theorem C167_violated_second_request :
    Reach true vecProblem ∧ (gradients true vecProblem).result = .ok ⟨⟨"cpu", none⟩, ⟨"cuda", some 0⟩, ⟨"cpu", none⟩⟩ ∧
      (gradients true (gradients true vecProblem).state).result = .error .runtimeError :=
  ⟨.new .., rfl, rfl⟩

/-- **C167 violated.** No problem class of the library defines `seed`: no actor of a problem with its own generator can be started. -/
theorem C167_violated_actors (cuda : Bool) (p : Prob) (_ : Reach cuda p) (hg : p.generator ≠ none) (hs : p.definesSeed = false) (n : Nat) (seeds : Nat → Nat) :
    startActors p (n + 1) seeds = .error .attributeError := by
  obtain ⟨g, hg⟩ := Option.ne_none_iff_exists'.1 hg
  have : ∀ i, startActor p i (seeds i) = .error .attributeError := by
    intro i; simp [startActor, hg, hs]
  rw [startActors, List.range_succ_eq_map, List.mapM_cons, this]; rfl

/-- Such a problem. -/
example : Reach true auxProblem ∧ auxProblem.generator ≠ none ∧ auxProblem.definesSeed = false := ⟨.new .., by decide, rfl⟩

/-- A problem with actors whose networks are on GPUs of their own, asked for gradients in actor 1. -/
example : ∃ qs, startActors (new ⟨"cpu", none⟩ true .ne false none) 2 id = .ok qs ∧
    (qs.map fun q => (gradients true q).result.toOption) =
      [some ⟨⟨"cuda", some 0⟩, ⟨"cuda", some 0⟩, ⟨"cpu", none⟩⟩, some ⟨⟨"cuda", some 1⟩, ⟨"cuda", some 1⟩, ⟨"cpu", none⟩⟩] :=
  ⟨_, C167_actors_partial _ _ _ rfl, by decide +kernel⟩

end EvoTorch.SeededDevices
