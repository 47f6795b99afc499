import Verif.Model.ProblemLife
import Mathlib.Data.Nat.Notation
/-!
C103: a problem evaluates with the network it was given, whatever happened to it before.
-/
namespace EvoTorch.ProblemLife
variable {α : Type}

/-! ### Specification -/

/-- What each operation is expected to give: evaluations use the given network `n` (once for each piece of the batch, if there are actors). -/
def expected (n : α) (numActors : Nat) : Op → Except PyErr (List α)
  | .evaluate sched => .ok (List.replicate (if numActors = 0 then 1 else sched.length) n)
  | .makeNet => .ok [n]
  | .clone => .ok []
  | .killActors => .ok []

/-- The histories for which this holds. `live`: there are actors; `evaluated`: the problem, or the one it was copied from, has evaluated. Actors are removed only if there
are some, and a problem which has evaluated in its own process is not copied. -/
def Fine (numActors : Nat) : Bool → Bool → List Op → Prop
  | _, _, [] => True
  | _, _, .evaluate _ :: rest => Fine numActors (numActors != 0) true rest
  | live, ev, .makeNet :: rest => Fine numActors live ev rest
  | _, ev, .clone :: rest => (0 < numActors ∨ ev = false) ∧ Fine numActors false ev rest
  | live, ev, .killActors :: rest => live = true ∧ Fine numActors false ev rest

/-! ### Proof -/

/-- The object can still produce the network. -/
def Able (n : α) (o : Obj α) : Prop :=
  (o.instantiated = none ∨ o.instantiated = some n) ∧
  (o.original = some n ∨ (o.original = none ∧ o.instantiated = some n ∧ o.kind = .ne ∧ o.prepared = true))

theorem able_parameterize (n : α) (o : Obj α) (h : Able n o) :
    (parameterizeNet o).result = .ok n ∧ Able n (parameterizeNet o).state ∧
    (parameterizeNet o).state = { o with instantiated := some n } := by
  obtain ⟨h1, h2⟩ := h
  rcases o with ⟨k, na, ai, og, ds, orig, inst, prep, iter⟩
  simp only at h1 h2
  rcases h1 with rfl | rfl
  · rcases h2 with rfl | ⟨_, h, _⟩
    · exact ⟨rfl, ⟨Or.inr rfl, Or.inl rfl⟩, rfl⟩
    · cases h
  · refine ⟨rfl, ⟨Or.inr rfl, ?_⟩, rfl⟩
    exact h2

theorem able_prepare (n : α) (o : Obj α) (b : Bool) (h : Able n o) :
    (startPreparations o b).result = .ok () ∧ Able n (startPreparations o b).state ∧
    (startPreparations o b).state.kind = o.kind ∧ (startPreparations o b).state.numActors = o.numActors ∧
    (startPreparations o b).state.actorIndex = o.actorIndex ∧ (startPreparations o b).state.ownGenerator = o.ownGenerator ∧
    (startPreparations o b).state.definesSeed = o.definesSeed ∧
    ((o.kind = .supervised ∨ (b = true ∧ o.numActors ≠ 0)) → (startPreparations o b).state.original = o.original) ∧
    (startPreparations o b).state.iterating = o.iterating := by
  rcases o with ⟨k, na, ai, og, ds, orig, inst, prep, iter⟩
  obtain ⟨h1, h2⟩ := h
  simp only at h1 h2
  cases prep with
  | true => exact ⟨rfl, ⟨h1, h2⟩, rfl, rfl, rfl, rfl, rfl, fun _ => rfl, rfl⟩
  | false =>
    have horig : orig = some n := by
      rcases h2 with h | ⟨_, _, _, h⟩
      · exact h
      · cases h
    subst horig
    by_cases hb : (!b || na == 0) = true
    · cases k with
      | supervised =>
        simp only [startPreparations, hb, prepare, if_true, Bool.false_eq_true, if_false]
        exact ⟨trivial, ⟨h1, Or.inl rfl⟩, trivial, trivial, trivial, trivial, trivial, fun _ => trivial, trivial⟩
      | ne =>
        simp only [startPreparations, hb, prepare, instantiateNet, if_true, Bool.false_eq_true, if_false]
        refine ⟨trivial, ⟨Or.inr rfl, Or.inr ⟨rfl, rfl, rfl, rfl⟩⟩, trivial, trivial, trivial, trivial, trivial, ?_, trivial⟩
        rintro (h | ⟨rfl, h⟩)
        · cases h
        · simp [h] at hb
    · simp only [startPreparations, hb, Bool.false_eq_true, if_false]
      exact ⟨trivial, ⟨h1, Or.inl rfl⟩, trivial, trivial, trivial, trivial, trivial, fun _ => trivial, trivial⟩

theorem able_evaluateHere (n : α) (o : Obj α) (h : Able n o) : (evaluateHere o).result = .ok n ∧ Able n (evaluateHere o).state := by
  obtain ⟨h1, h2, _⟩ := able_prepare n o false h
  simp only [evaluateHere, h1]
  rw [(able_parameterize n _ h2).1]
  exact ⟨rfl, (able_parameterize n _ h2).2.1⟩

theorem remotely (n : α) (sched : List Nat) : ∀ (actors : List (Option (Obj α))), actors ≠ [] → (∀ a ∈ actors, ∃ o, a = some o ∧ Able n o) →
    (evaluateRemotely sched actors).result = .ok (List.replicate sched.length n) ∧
    (evaluateRemotely sched actors).state.length = actors.length ∧
    (∀ a ∈ (evaluateRemotely sched actors).state, ∃ o, a = some o ∧ Able n o) := by
  induction sched with
  | nil => intro actors _ h; exact ⟨rfl, rfl, h⟩
  | cons i rest ih =>
    intro actors hne h
    have hlt : i % actors.length < actors.length := Nat.mod_lt _ (List.length_pos_iff.2 hne)
    obtain ⟨o, ho, hable⟩ := h _ (List.getElem_mem hlt)
    have hget : actors[i % actors.length]? = some (some o) := by rw [List.getElem?_eq_getElem hlt, ho]
    obtain ⟨h1, h2⟩ := able_evaluateHere n o hable
    have hacts : ∀ a ∈ actors.set (i % actors.length) (some (evaluateHere o).state), ∃ o, a = some o ∧ Able n o := by
      intro a ha
      rcases List.mem_or_eq_of_mem_set ha with h' | rfl
      · exact h a h'
      · exact ⟨_, rfl, h2⟩
    have hne' : actors.set (i % actors.length) (some (evaluateHere o).state) ≠ [] := by
      intro hc; have := congrArg List.length hc; rw [List.length_set] at this; exact hne (List.length_eq_zero_iff.1 this)
    obtain ⟨q1, q2, q3⟩ := ih _ hne' hacts
    simp only [evaluateRemotely, hget, h1, q1]
    refine ⟨by simp [List.replicate_succ], by rw [q2, List.length_set], q3⟩

/-- The invariant of the main problem. -/
structure Inv (n : α) (kind : Kind) (numActors : Nat) (own seed live ev : Bool) (m : Main α) : Prop where
  ikind : m.obj.kind = kind
  inum : m.obj.numActors = numActors
  imain : m.obj.actorIndex = none
  iown : m.obj.ownGenerator = own
  iseed : m.obj.definesSeed = seed
  iable : Able n m.obj
  iorig : 0 < numActors ∨ ev = false → m.obj.original = some n
  iiter : 0 < numActors ∨ ev = false → m.obj.iterating = false
  ilive : m.actors.isSome = live
  iactors : ∀ as, m.actors = some as → as ≠ [] ∧ ∀ a ∈ as, ∃ o, a = some o ∧ Able n o

theorem step_evaluate (n : α) (kind : Kind) (numActors : Nat) (own seed live ev : Bool) (hgen : own = true → seed = true ∨ numActors = 0)
    (m : Main α) (h : Inv n kind numActors own seed live ev m) (sched : List Nat) (hlive : live = true → numActors ≠ 0) :
    (evaluate sched m).result = expected n numActors (.evaluate sched) ∧
    Inv n kind numActors own seed (numActors != 0) true (evaluate sched m).state := by
  by_cases h0 : numActors = 0
  · have hnone : m.actors = none := by
      cases ha : m.actors with
      | none => rfl
      | some as =>
        have := h.ilive; rw [ha] at this
        exact absurd h0 (hlive (by simpa using this.symm))
    have hpar : parallelize m = m := by simp [parallelize, h.inum, h0]
    obtain ⟨p1, p2, p3, p4, p5, p6, p7, p8, p9⟩ := able_prepare n m.obj false h.iable
    obtain ⟨r1, r2, r3⟩ := able_parameterize n _ p2
    have hres : evaluate sched m = ⟨{ m with obj := useData (parameterizeNet (startPreparations m.obj false).state).state }, .ok [n]⟩ := by
      simp only [evaluate, hpar, hnone, Option.isSome_none, p1, r1]
    rw [hres]
    refine ⟨by simp [expected, h0], ?_⟩
    constructor
    · show (parameterizeNet _).state.kind = kind; rw [r3]; exact p3.trans h.ikind
    · show (parameterizeNet _).state.numActors = numActors; rw [r3]; exact p4.trans h.inum
    · show (parameterizeNet _).state.actorIndex = none; rw [r3]; exact p5.trans h.imain
    · show (parameterizeNet _).state.ownGenerator = own; rw [r3]; exact p6.trans h.iown
    · show (parameterizeNet _).state.definesSeed = seed; rw [r3]; exact p7.trans h.iseed
    · exact r2
    · rintro (hk | hk)
      · omega
      · cases hk
    · rintro (hk | hk)
      · omega
      · cases hk
    · show m.actors.isSome = _; rw [hnone, h0]; rfl
    · intro as has; change m.actors = some as at has; rw [hnone] at has; cases has
  · have hact : ∃ as, parallelize m = { m with actors := some as } ∧ as ≠ [] ∧ ∀ a ∈ as, ∃ o, a = some o ∧ Able n o := by
      cases ha : m.actors with
      | some as =>
        refine ⟨as, ?_, h.iactors as ha⟩
        simp only [parallelize, h.inum, h0, h.imain, ha, if_false, Option.isSome_none, Option.isSome_some, Bool.false_eq_true, if_true]
        cases m; simp_all
      | none =>
        refine ⟨(List.range numActors).map (makeActor m.obj), ?_, ?_, ?_⟩
        · simp only [parallelize, h.inum, h0, h.imain, ha, if_false, Option.isSome_none, Bool.false_eq_true]
        · intro hc; have := congrArg List.length hc; simp at this; exact h0 this
        · intro a ha'
          simp only [List.mem_map] at ha'
          obtain ⟨i, _, rfl⟩ := ha'
          have hb : (m.obj.ownGenerator && !m.obj.definesSeed) = false := by
            rw [h.iown, h.iseed]
            cases hown : own with
            | false => rfl
            | true => rcases hgen hown with hs | hs
                      · simp [hs]
                      · exact absurd hs h0
          refine ⟨{ cloneObj m.obj with actorIndex := some i }, by simp [makeActor, hb], ⟨Or.inl rfl, Or.inl ?_⟩⟩
          exact h.iorig (Or.inl (Nat.pos_of_ne_zero h0))
    obtain ⟨as, hpar, hne, has⟩ := hact
    obtain ⟨p1, p2, p3, p4, p5, p6, p7, p8, p9⟩ := able_prepare n m.obj true h.iable
    obtain ⟨q1, q2, q3⟩ := remotely n sched as hne has
    have hres : evaluate sched m = ⟨⟨(startPreparations m.obj true).state, some (evaluateRemotely sched as).state⟩, .ok (List.replicate sched.length n)⟩ := by
      simp only [evaluate, hpar, Option.isSome_some, p1, q1]
    rw [hres]
    refine ⟨by simp [expected, h0], p3.trans h.ikind, p4.trans h.inum, p5.trans h.imain, p6.trans h.iown, p7.trans h.iseed, p2, ?_, ?_, ?_, ?_⟩
    · intro _
      exact (p8 (Or.inr ⟨rfl, by rw [h.inum]; exact h0⟩)).trans (h.iorig (Or.inl (Nat.pos_of_ne_zero h0)))
    · intro _
      rw [p9]; exact h.iiter (Or.inl (Nat.pos_of_ne_zero h0))
    · simp [h0]
    · intro as' has'
      cases has'
      refine ⟨?_, q3⟩
      intro hc; have := congrArg List.length hc; rw [q2] at this; exact hne (List.length_eq_zero_iff.1 this)

/-- **C103.** In every history of evaluations, of making networks, of copying (the copy is used from then on) and of removing the actors, everything succeeds and every
solution is evaluated with the network given by the user; whichever actors evaluate the pieces. Restricted to the histories called `Fine`, and to problems without their own
generator if there are actors. -/
theorem C103_partial (n : α) (kind : Kind) (numActors : Nat) (own seed : Bool) (hgen : own = true → seed = true ∨ numActors = 0) (ops : List Op)
    (hops : Fine numActors false false ops) :
    run ops (fresh kind numActors own seed n) = ops.map (expected n numActors) := by
  have key : ∀ (ops : List Op) (live ev : Bool) (m : Main α), Inv n kind numActors own seed live ev m → (live = true → numActors ≠ 0) → Fine numActors live ev ops →
      run ops m = ops.map (expected n numActors) := by
    intro ops
    induction ops with
    | nil => intro live ev m _ _ _; rfl
    | cons op rest ih =>
      intro live ev m h hlive hf
      simp only [run, List.map_cons]
      cases op with
      | evaluate sched =>
        obtain ⟨h1, h2⟩ := step_evaluate n kind numActors own seed live ev hgen m h sched hlive
        simp only [apply]
        rw [h1, ih _ _ _ h2 (by intro hh; simpa using hh) hf]
      | makeNet =>
        obtain ⟨r1, r2, r3⟩ := able_parameterize n _ h.iable
        have hinv : Inv n kind numActors own seed live ev (makeNet m).state := by
          constructor
          · show (parameterizeNet _).state.kind = kind; rw [r3]; exact h.ikind
          · show (parameterizeNet _).state.numActors = numActors; rw [r3]; exact h.inum
          · show (parameterizeNet _).state.actorIndex = none; rw [r3]; exact h.imain
          · show (parameterizeNet _).state.ownGenerator = own; rw [r3]; exact h.iown
          · show (parameterizeNet _).state.definesSeed = seed; rw [r3]; exact h.iseed
          · exact r2
          · intro hh; show (parameterizeNet _).state.original = _; rw [r3]; exact h.iorig hh
          · intro hh; show (parameterizeNet _).state.iterating = _; rw [r3]; exact h.iiter hh
          · exact h.ilive
          · exact h.iactors
        simp only [apply]
        rw [ih _ _ _ hinv hlive hf]
        simp only [makeNet, r1, expected]; rfl
      | clone =>
        obtain ⟨hc, hf⟩ := hf
        have hany : ((m.actors.getD []).any Option.isNone) = false := by
          cases ha : m.actors with
          | none => rfl
          | some as =>
            rw [Option.getD_some, List.any_eq_false]
            intro a haa
            obtain ⟨o, rfl, _⟩ := (h.iactors as ha).2 a haa
            simp
        have horig : m.obj.original = some n := h.iorig hc
        have hiter : m.obj.iterating = false := h.iiter hc
        have hinv : Inv n kind numActors own seed false ev (⟨cloneObj m.obj, none⟩ : Main α) :=
          ⟨h.ikind, h.inum, h.imain, h.iown, h.iseed, ⟨Or.inl rfl, Or.inl horig⟩, fun _ => horig, fun _ => hiter, rfl, fun as has => by cases has⟩
        simp only [apply, clone, hany, hiter, Bool.false_eq_true, if_false]
        rw [ih _ _ _ hinv (by simp) hf]; rfl
      | killActors =>
        obtain ⟨rfl, hf⟩ := hf
        obtain ⟨as, has⟩ := Option.isSome_iff_exists.1 h.ilive
        have hinv : Inv n kind numActors own seed false ev ({ m with actors := none } : Main α) :=
          ⟨h.ikind, h.inum, h.imain, h.iown, h.iseed, h.iable, h.iorig, h.iiter, rfl, fun as has => by cases has⟩
        simp only [apply, killActors, h.imain, has, Option.isSome_none, Bool.false_eq_true, if_false]
        rw [ih _ _ _ hinv (by simp) hf]; rfl
  refine key ops false false _ ⟨rfl, rfl, rfl, rfl, rfl, ⟨Or.inl rfl, Or.inl rfl⟩, fun _ => rfl, fun _ => rfl, rfl, fun as has => by cases has⟩ (by simp) hops

/-- **C103 violated.** A problem without actors which has evaluated something cannot be copied (or pickled): evaluating with the copy raises TypeError, and so does making a
network with it. -/
theorem C103_violated_copy (n : α) (own seed : Bool) (s t : List Nat) :
    run [.evaluate s, .clone, .evaluate t, .makeNet] (fresh .ne 0 own seed n) = [.ok [n], .ok [], .error .typeError, .error .typeError] := by
  rfl

/-- **C103 violated.** A `SupervisedNE` without actors which has evaluated something cannot be copied (or pickled) at all: NotImplementedError. The problem itself goes on
working. -/
theorem C103_violated_supervised (n : α) (own seed : Bool) (s t : List Nat) :
    run [.clone, .evaluate s, .clone, .evaluate t, .makeNet] (fresh .supervised 0 own seed n) = [.ok [], .ok [n], .error .notImplementedError, .ok [n], .ok [n]] := by
  rfl

/-- **C103 violated.** A problem with its own generator (`seed=...`) of a class without a method `seed` cannot use actors: its evaluation fails, every time. -/
theorem C103_violated_generator (n : α) (kind : Kind) (numActors : Nat) (h : 0 < numActors) (i j : Nat) (s t : List Nat) :
    run [.evaluate (i :: s), .evaluate (j :: t)] (fresh kind numActors true false n) = [.error .otherError, .error .otherError] := by
  have hn : numActors ≠ 0 := by omega
  have hrep : (List.range numActors).map (makeActor (fresh kind numActors true false n).obj) = List.replicate numActors none := by
    rw [List.eq_replicate_iff]
    refine ⟨by simp, ?_⟩
    intro b hb
    simp only [List.mem_map] at hb
    obtain ⟨i, _, rfl⟩ := hb
    rfl
  have hrem : ∀ (i : Nat) (s : List Nat), evaluateRemotely (i :: s) (List.replicate numActors (none : Option (Obj α))) = ⟨List.replicate numActors none, .error .otherError⟩ := by
    intro i s
    have : i % numActors < numActors := Nat.mod_lt _ h
    simp only [evaluateRemotely, List.length_replicate, List.getElem?_replicate, this, if_true]
  have h1 : evaluate (i :: s) (fresh kind numActors true false n) =
      ⟨⟨{ (fresh kind numActors true false n).obj with prepared := true }, some (List.replicate numActors none)⟩, .error .otherError⟩ := by
    have hpar : parallelize (fresh kind numActors true false n) = ⟨(fresh kind numActors true false n).obj, some (List.replicate numActors none)⟩ := by
      simp [parallelize, fresh, hn]
      exact hrep
    simp only [evaluate, hpar, hrem]
    simp [startPreparations, fresh, hn]
  simp only [run, apply, h1]
  simp [evaluate, parallelize, hn, startPreparations, fresh, hrem]

/-- **C103 violated.** Removing the actors of a problem which has none (yet) raises TypeError. -/
theorem C103_violated_kill (n : α) (kind : Kind) (numActors : Nat) (own seed : Bool) : run [.killActors] (fresh kind numActors own seed n) = [.error .typeError] := rfl

/-! ### Non-vacuity -/

example : Fine 3 false false [.makeNet, .evaluate [0, 2, 1], .clone, .evaluate [5], .killActors, .evaluate [], .makeNet, .clone] := by simp [Fine]
example : Fine 0 false false [.clone, .makeNet, .clone, .evaluate [], .evaluate [], .makeNet] := by simp [Fine]
example : Fine 0 false false [.clone, .makeNet, .clone, .evaluate [], .evaluate []] := by simp [Fine]
example : run [.evaluate [0, 2, 1], .clone, .evaluate [5], .killActors, .evaluate [4, 4]] (fresh .ne 3 false false "net") =
    [.ok ["net", "net", "net"], .ok [], .ok ["net"], .ok [], .ok ["net", "net"]] := by rfl

end EvoTorch.ProblemLife
