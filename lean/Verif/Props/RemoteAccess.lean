import Verif.Model.RemoteAccess
import Mathlib.Data.List.Perm.Basic
import Mathlib.Data.List.Nodup
import Mathlib.Logic.Function.Iterate
/-! Property C147: methods called on all remote problems or environments. -/
namespace EvoTorch.RemoteAccess
open EvoTorch
variable {S E X : Type}

/-! ### Specification -/

/-- The main problem has its `numActors` distinct live actors. -/
def Ready (p : Problem S E) (k : Cluster S E) (hs : List ℕ) : Prop :=
  p.actors = some hs ∧ hs.length = p.numActors ∧ hs.Nodup ∧ (∀ h ∈ hs, ∃ r, k.live h = some r) ∧ p.actorIndex = none

/-- The results in order, or the first exception. -/
def gather : List (Except PyErr X) → Except PyErr (List X)
  | [] => .ok []
  | .error e :: _ => .error e
  | .ok x :: rest => (gather rest).map (x :: ·)

/-! ### Proof -/

theorem runTasks_spec (c : Class S E X) (onEnv : Bool) (name : String) : ∀ (order : List ℕ) (k : Cluster S E), order.Nodup → (∀ h ∈ order, ∃ r, k.live h = some r) →
    (∀ h r, k.live h = some r → (runTasks c onEnv name order k).1.live h = some (if h ∈ order then (perform c onEnv name r).1 else r)) ∧
    (∀ h, k.live h = none → (runTasks c onEnv name order k).1.live h = none) ∧
    (runTasks c onEnv name order k).1.next = k.next ∧
    (∀ h ∈ order, ∀ r, k.live h = some r → answerOf (runTasks c onEnv name order k).2 h = (perform c onEnv name r).2) := by
  intro order
  induction order with
  | nil => intro k _ _; exact ⟨fun h r hr => by simpa [runTasks] using hr, fun h hn => hn, rfl, fun h hh => by cases hh⟩
  | cons a rest ih =>
    intro k hnd hlive
    obtain ⟨ra, hra⟩ := hlive a (by simp)
    have hna : a ∉ rest := (List.nodup_cons.1 hnd).1
    have ht : task c onEnv name a k = ({ k with live := fun h' => if h' = a then some (perform c onEnv name ra).1 else k.live h' }, (perform c onEnv name ra).2) := by simp [task, hra]
    obtain ⟨i1, i2, i3, i4⟩ := ih (task c onEnv name a k).1 (List.nodup_cons.1 hnd).2 (by
      intro h hh
      have hne : h ≠ a := fun e => hna (e ▸ hh)
      obtain ⟨r, hr⟩ := hlive h (by simp [hh])
      exact ⟨r, by rw [ht]; simp [hne, hr]⟩)
    refine ⟨?_, ?_, ?_, ?_⟩
    · intro h r hr
      by_cases e : h = a
      · subst e
        rw [hra] at hr; cases hr
        have := i1 h (perform c onEnv name ra).1 (by rw [ht]; simp)
        simp only [runTasks, List.mem_cons, true_or, if_true]
        rw [this, if_neg hna]
      · have := i1 h r (by rw [ht]; simp [e, hr])
        simp only [runTasks, List.mem_cons, e, false_or]
        exact this
    · intro h hn
      have e : h ≠ a := fun e => by rw [e, hra] at hn; cases hn
      exact i2 h (by rw [ht]; simp [e, hn])
    · show (runTasks c onEnv name rest (task c onEnv name a k).1).1.next = _
      rw [i3, ht]
    · intro h hh r hr
      simp only [runTasks, answerOf, List.find?_cons]
      by_cases e : a = h
      · subst e
        rw [hra] at hr; cases hr
        simp [ht]
      · have hmem : h ∈ rest := by
          rcases List.mem_cons.1 hh with rfl | h'
          · exact absurd rfl e
          · exact h'
        have := i4 h hmem r (by rw [ht]; simp [Ne.symm e, hr])
        simp only [answerOf] at this
        simp only [beq_iff_eq, e, beq_eq_false_iff_ne.2 e]
        exact this

theorem mapM_gather (f : ℕ → Except PyErr X) : ∀ l : List ℕ, l.mapM f = gather (l.map f) := by
  intro l
  induction l with
  | nil => rfl
  | cons h l ih =>
    rw [List.mapM_cons, List.map_cons, ih]
    cases hf : f h with
    | error e => rfl
    | ok x =>
      simp only [gather]
      cases gather (l.map f) <;> rfl

/-- **C147.** On a main problem with actors, a method called through `all_remote_problems()` or `all_remote_envs()` is executed exactly once in each actor, in whatever order the actors get to it; other actors of
the cluster are not touched. The answer lists the results in the order of the actors; if some actors raise, it is the exception of the first of them. -/
theorem C147_each_once (c : Class S E X) (p : Problem S E) (k : Cluster S E) (hs : List ℕ) (h : Ready p k hs) (onEnv : Bool) (name : String) (order : List ℕ) (ho : order.Perm hs) :
    access onEnv (p, k) = ⟨(p, k), .ok ⟨some hs, onEnv⟩⟩ ∧
      (∃ rs : List (Remote S E), List.Forall₂ (fun h r => k.live h = some r) hs rs ∧ rs.length = p.numActors ∧
        (callAll c ⟨some hs, onEnv⟩ name order k).result = gather (rs.map fun r => (perform c onEnv name r).2) ∧
        List.Forall₂ (fun h r => (callAll c ⟨some hs, onEnv⟩ name order k).state.live h = some (perform c onEnv name r).1) hs rs) ∧
      (∀ h, h ∉ hs → (callAll c ⟨some hs, onEnv⟩ name order k).state.live h = k.live h) := by
  obtain ⟨hact, hlen, hnd, hlive, hmain⟩ := h
  refine ⟨?_, ?_, ?_⟩
  · have hp : parallelize p k = (p, k) := by
      unfold parallelize
      rw [hact]
      by_cases h0 : p.numActors = 0 <;> simp [h0, hmain]
    simp only [access, hp, hmain, hact, Option.isSome_none, Bool.false_eq_true, if_false]
  · obtain ⟨s1, s2, s3, s4⟩ := runTasks_spec c onEnv name order k (ho.nodup_iff.2 hnd) fun h hh => hlive h (ho.subset hh)
    obtain ⟨rs, hrs⟩ : ∃ rs : List (Remote S E), List.Forall₂ (fun h r => k.live h = some r) hs rs := by
      clear hact hlen hnd ho s1 s2 s3 s4
      induction hs with
      | nil => exact ⟨[], .nil⟩
      | cons a l ih =>
        obtain ⟨r, hr⟩ := hlive a (by simp)
        obtain ⟨rs, hrs⟩ := ih fun h hh => hlive h (by simp [hh])
        exact ⟨r :: rs, .cons hr hrs⟩
    refine ⟨rs, hrs, hrs.length_eq.symm.trans hlen, ?_, ?_⟩
    · show hs.mapM (answerOf (runTasks c onEnv name order k).2) = _
      rw [mapM_gather]
      congr 1
      have key : ∀ (l : List ℕ) (rs : List (Remote S E)), (∀ h ∈ l, h ∈ hs) → List.Forall₂ (fun h r => k.live h = some r) l rs →
          l.map (answerOf (runTasks c onEnv name order k).2) = rs.map fun r => (perform c onEnv name r).2 := by
        intro l rs hsub hf
        induction hf with
        | nil => rfl
        | @cons h r l rs hr _ ih =>
          simp only [List.map_cons]
          rw [s4 h (ho.symm.subset (hsub h (by simp))) r hr, ih fun h hh => hsub h (by simp [hh])]
      exact key hs rs (fun _ h => h) hrs
    · have key : ∀ (l : List ℕ) (rs : List (Remote S E)), (∀ h ∈ l, h ∈ hs) → List.Forall₂ (fun h r => k.live h = some r) l rs →
          List.Forall₂ (fun h r => (runTasks c onEnv name order k).1.live h = some (perform c onEnv name r).1) l rs := by
        intro l rs hsub hf
        induction hf with
        | nil => exact .nil
        | @cons h r l rs hr _ ih =>
          refine .cons ?_ (ih fun h hh => hsub h (by simp [hh]))
          rw [s1 h r hr, if_pos (ho.symm.subset (hsub h (by simp)))]
      exact key hs rs (fun _ h => h) hrs
  · intro h hh
    obtain ⟨s1, s2, s3, s4⟩ := runTasks_spec c onEnv name order k (ho.nodup_iff.2 hnd) fun h hh => hlive h (ho.subset hh)
    show (runTasks c onEnv name order k).1.live h = k.live h
    cases hk : k.live h with
    | none => exact s2 h hk
    | some r => rw [s1 h r hk, if_neg fun hm => hh (ho.subset hm)]

/-- **C147.** Asking for the accessor makes the actors if there are none yet: as many as configured, each with a copy of the problem (without an environment), and does not touch others. -/
theorem C147_made (p : Problem S E) (k : Cluster S E) (onEnv : Bool) (hn : 0 < p.numActors) (hm : p.actorIndex = none) (ha : p.actors = none) (hk : ∀ h, k.next ≤ h → k.live h = none) :
    ∃ hs, Ready (access onEnv (p, k)).state.1 (access onEnv (p, k)).state.2 hs ∧ (access onEnv (p, k)).result = .ok ⟨some hs, onEnv⟩ ∧
      (∀ h ∈ hs, k.live h = none ∧ (access onEnv (p, k)).state.2.live h = some ⟨p.self.state, none⟩) ∧
      (∀ h, h ∉ hs → (access onEnv (p, k)).state.2.live h = k.live h) := by
  have h0 : p.numActors ≠ 0 := by omega
  have hp : parallelize p k = ({ p with actors := some ((List.range p.numActors).map (k.next + ·)) },
       ⟨fun h => if k.next ≤ h ∧ h < k.next + p.numActors then some ⟨p.self.state, none⟩ else k.live h, k.next + p.numActors⟩) := by
    unfold parallelize
    rw [ha]
    simp [h0, hm]
  have hmem : ∀ h, h ∈ (List.range p.numActors).map (k.next + ·) ↔ k.next ≤ h ∧ h < k.next + p.numActors := by
    intro h
    simp only [List.mem_map, List.mem_range]
    constructor
    · rintro ⟨i, hi, rfl⟩; omega
    · rintro ⟨h1, h2⟩; exact ⟨h - k.next, by omega, by omega⟩
  refine ⟨(List.range p.numActors).map (k.next + ·), ?_, ?_, ?_, ?_⟩
  · simp only [access, hp, hm, Option.isSome_none, Bool.false_eq_true, if_false]
    refine ⟨rfl, by simp, ?_, ?_, rfl⟩
    · exact List.Nodup.map (fun a b hab => by simpa using hab) List.nodup_range
    · intro h hh
      exact ⟨_, if_pos ((hmem h).1 hh)⟩
  · simp only [access, hp, hm, Option.isSome_none, Bool.false_eq_true, if_false]
  · intro h hh
    refine ⟨hk h ((hmem h).1 hh).1, ?_⟩
    simp only [access, hp, hm, Option.isSome_none, Bool.false_eq_true, if_false]
    exact if_pos ((hmem h).1 hh)
  · intro h hh
    simp only [access, hp, hm, Option.isSome_none, Bool.false_eq_true, if_false]
    exact if_neg fun hc => hh ((hmem h).2 hc)

/-- **C147.** Inside an actor the accessors are refused (RuntimeError), without effect. A problem without actors gives an accessor, every call of which raises TypeError, without effect. -/
theorem C147_refused (c : Class S E X) (p : Problem S E) (k : Cluster S E) (onEnv : Bool) :
    (p.actorIndex.isSome = true → access onEnv (p, k) = ⟨(p, k), .error .runtimeError⟩) ∧
    (p.actorIndex = none → p.numActors = 0 → p.actors = none → ∃ a, access onEnv (p, k) = ⟨(p, k), .ok a⟩ ∧ ∀ name order, callAll c a name order k = ⟨k, .error .typeError⟩) := by
  constructor
  · intro h
    have hp : parallelize p k = (p, k) := by
      unfold parallelize
      by_cases h0 : p.numActors = 0 <;> simp [h0, h]
    simp only [access, hp, h, if_true]
  · intro h h0 ha
    have hp : parallelize p k = (p, k) := by simp [parallelize, h0]
    refine ⟨⟨none, onEnv⟩, ?_, fun name order => rfl⟩
    simp only [access, hp, h, ha, Option.isSome_none, Bool.false_eq_true, if_false]

/-- **C147.** An accessor belongs to the actors which existed when it was made: once these were removed, its calls raise the exception of ray and change nothing, whether or not the problem has new actors by then. -/
theorem C147_stale (c : Class S E X) (k : Cluster S E) (hs : List ℕ) (hne : hs ≠ []) (hd : ∀ h ∈ hs, k.live h = none) (onEnv : Bool) (name : String) (order : List ℕ) (ho : order.Perm hs) :
    callAll c ⟨some hs, onEnv⟩ name order k = ⟨k, .error .otherError⟩ := by
  have key : ∀ order : List ℕ, (∀ h ∈ order, k.live h = none) → runTasks c onEnv name order k = (k, order.map fun h => (h, .error .otherError)) := by
    intro order
    induction order with
    | nil => intro _; rfl
    | cons a rest ih =>
      intro h
      have ht : task c onEnv name a k = (k, .error .otherError) := by simp [task, h a (by simp)]
      simp only [runTasks, ht, ih fun h' hh => h h' (by simp [hh]), List.map_cons]
  have hr := key order fun h hh => hd h (ho.subset hh)
  have hall : ∀ (l : List ℕ) h, answerOf (l.map fun h => (h, (Except.error .otherError : Except PyErr X))) h = .error .otherError := by
    intro l h
    unfold answerOf
    cases hf : (l.map fun h => (h, (Except.error .otherError : Except PyErr X))).find? fun p => p.1 == h with
    | none => rfl
    | some q =>
      have := List.mem_of_find?_eq_some hf
      simp only [List.mem_map] at this
      obtain ⟨_, _, rfl⟩ := this
      rfl
  simp only [callAll, hr]
  congr 1
  cases hs with
  | nil => exact absurd rfl hne
  | cons a l => rw [List.mapM_cons, hall]; rfl

/-- The hypotheses of `C147_stale` arise from `kill_actors()`. -/
theorem C147_stale_after_kill (p : Problem S E) (k : Cluster S E) (hs : List ℕ) (h : Ready p k hs) :
    (killActors (p, k)).result = .ok () ∧ (∀ h ∈ hs, (killActors (p, k)).state.2.live h = none) ∧ (∀ h, h ∉ hs → (killActors (p, k)).state.2.live h = k.live h) ∧
    (killActors (p, k)).state.1.actors = none := by
  obtain ⟨hact, _, _, _, hmain⟩ := h
  simp only [killActors, hmain, hact, Option.isSome_none, Bool.false_eq_true, if_false]
  exact ⟨trivial, fun h hh => if_pos hh, fun h hh => if_neg hh, trivial⟩

/-- **C147.** Methods of environments: with a problem which makes its environment on demand, the first call makes it (even one of an unknown method, which is an AttributeError), and later calls act on the same one; the problem itself is not changed. -/
theorem C147_env_making (c : Class S E X) (hc : c.envAccess = .making) (name : String) (f : E → E × Except PyErr X) (hf : c.envMethods name = some f) (s : S) (e : E) :
    perform c true name ⟨s, none⟩ = (⟨s, some (f (c.makeEnv s)).1⟩, (f (c.makeEnv s)).2) ∧ perform c true name ⟨s, some e⟩ = (⟨s, some (f e).1⟩, (f e).2) ∧
    ∀ other, c.envMethods other = none → perform c true other ⟨s, none⟩ = (⟨s, some (c.makeEnv s)⟩, .error .attributeError) ∧ perform c true other ⟨s, some e⟩ = (⟨s, some e⟩, .error .attributeError) := by
  refine ⟨by simp [perform, hc, hf], by simp [perform, hc, hf], fun other h => ⟨?_, ?_⟩⟩ <;> simp [perform, hc, h]

/-- **C147.** Methods of problems: in each actor (by `C147_each_once`) the method runs on the problem of this actor, whose environment is not touched, and leaves its effects there, so that `n` calls in a row
compose; an unknown name is an AttributeError and has no effect. -/
theorem C147_problem_method (c : Class S E X) (name : String) (f : S → S × Except PyErr X) (hf : c.methods name = some f) (r : Remote S E) (n : ℕ) :
    (fun r => (perform c false name r).1)^[n] r = ⟨(fun s => (f s).1)^[n] r.state, r.env⟩ ∧
    (perform c false name ((fun r => (perform c false name r).1)^[n] r)).2 = (f ((fun s => (f s).1)^[n] r.state)).2 ∧
    (∀ other, c.methods other = none → perform c false other r = (r, .error .attributeError)) := by
  have h1 : ∀ r : Remote S E, perform c false name r = (⟨(f r.state).1, r.env⟩, (f r.state).2) := by intro r; simp [perform, hf]
  have h2 : ∀ (n : ℕ) (r : Remote S E), (fun r => (perform c false name r).1)^[n] r = ⟨(fun s => (f s).1)^[n] r.state, r.env⟩ := by
    intro n
    induction n with
    | zero => intro r; rfl
    | succ n ih => intro r; rw [Function.iterate_succ_apply, ih, h1, Function.iterate_succ_apply]
  exact ⟨h2 n r, by rw [h2, h1], fun other h => by simp [perform, h]⟩

/-- **C147 violated.** The actors which `all_remote_envs()` makes have no environments yet: with a problem like `VecGymNE`, whose `get_env()` gives None until something was evaluated, every call fails with
AttributeError. -/
theorem C147_violated_envs (c : Class S E X) (hc : c.envAccess = .stored ∨ c.envAccess = .missing) (p : Problem S E) (k : Cluster S E) (hn : 0 < p.numActors) (hm : p.actorIndex = none) (ha : p.actors = none)
    (hk : ∀ h, k.next ≤ h → k.live h = none) (name : String) :
    ∃ a, (access true (p, k)).result = .ok a ∧ ∀ order, (∀ hs, a.actors = some hs → order.Perm hs) → (callAll c a name order (access true (p, k)).state.2).result = .error .attributeError := by
  obtain ⟨hs, hready, hres, hlive, _⟩ := C147_made p k true hn hm ha hk
  refine ⟨⟨some hs, true⟩, hres, fun order ho => ?_⟩
  obtain ⟨_, ⟨rs, h2, h3, h4, _⟩, _⟩ := C147_each_once c _ _ hs hready true name order (ho hs rfl)
  rw [h4]
  cases h2 with
  | nil =>
    have hnum : (access true (p, k)).state.1.numActors = p.numActors := by
      have h0 : p.numActors ≠ 0 := by omega
      simp only [access, parallelize, h0, hm, ha, if_false, Option.isSome_none, Bool.false_eq_true]
    rw [hnum] at h3; simp only [List.length_nil] at h3; omega
  | @cons h r l rs' hr _ =>
    have := (hlive h (by simp)).2
    rw [hr] at this
    cases this
    have hperf : perform c true name (⟨p.self.state, none⟩ : Remote S E) = (⟨p.self.state, none⟩, .error .attributeError) := by
      rcases hc with hc | hc <;> simp [perform, hc]
    simp only [List.map_cons, hperf, gather]

/-- **C147 violated.** An accessor cannot be copied or unpickled (RecursionError), and its deep copy is not an accessor: the method `__deepcopy__` is called on all remote problems instead. -/
theorem C147_violated_copy (c : Class S E X) (a : Accessor) (order : List ℕ) (k : Cluster S E) :
    copyAccessor a = .error .recursionError ∧ deepcopyAccessor c a order k = callAll c a "__deepcopy__" order k := by
  exact ⟨rfl, by simp [deepcopyAccessor, getAttr]⟩

/-! ### Non-vacuity -/

/-- Counters: the method `tick` counts; environments are flags. -/
def exClass (e : EnvAccess) : Class ℕ Bool ℕ := ⟨fun n => if n = "tick" then some fun s => (s + 1, .ok s) else none, e, fun _ => false, fun n => if n = "close" then some fun b => (true, .ok (if b then 1 else 0)) else none⟩
def exProblem : Problem ℕ Bool := ⟨⟨7, none⟩, 2, none, none⟩
def exCluster : Cluster ℕ Bool := ⟨fun _ => none, 5⟩

example : 0 < exProblem.numActors ∧ exProblem.actorIndex = none ∧ exProblem.actors = none ∧ ∀ h, exCluster.next ≤ h → exCluster.live h = none := ⟨by decide, rfl, rfl, fun _ _ => rfl⟩
example : Ready (access false (exProblem, exCluster)).state.1 (access false (exProblem, exCluster)).state.2 [5, 6] :=
  ⟨rfl, rfl, by decide, by intro h hh; simp at hh; rcases hh with rfl | rfl <;> exact ⟨_, rfl⟩, rfl⟩
example : (callAll (exClass .making) ⟨some [5, 6], false⟩ "tick" [6, 5] (access false (exProblem, exCluster)).state.2).result = .ok [7, 7] := rfl

end EvoTorch.RemoteAccess
