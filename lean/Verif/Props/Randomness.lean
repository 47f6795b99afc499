import Verif.Model.Randomness
/-!
C134: random numbers come from the problem's own generator if it has one; a seeded search depends on nothing but its seed.
-/
namespace EvoTorch.Randomness
variable {V A : Type}

/-! ### Specification -/

/-- Sites at which problem `i`, its operators and its searchers draw, with no other generator asked for: everything but the noise and the environment seeds of
`VecGymNE`. -/
def Of (i : Nat) : Site → Prop
  | .maker j .nothing => j = i
  | .maker _ (.generatorOf j) => j = i
  | .maker _ (.problem j) => j = i
  | .maker _ .other => False
  | .searcher j => j = i
  | .gradient j => j = i
  | .distribution (.generatorOf j) => j = i
  | .distribution (.problem j) => j = i
  | .distribution _ => False
  | .bag (.generatorOf j) => j = i
  | .bag (.problem j) => j = i
  | .bag _ => False
  | .functional => False
  | .vecNoise _ => False
  | .envSeed _ => False

/-- A program all of whose draws, whatever was drawn before, are at sites of problem `i`. -/
inductive OnlyOf (i : Nat) : Prog V A → Prop
  | done (a : A) : OnlyOf i (.done a)
  | draw (s : Site) (k : V → Prog V A) (hs : Of i s) (hk : ∀ v, OnlyOf i (k v)) : OnlyOf i (.draw s k)

/-- Sites at which the generator of problem `i` could be used. -/
def Mentions (i : Nat) : Site → Prop
  | .maker j .nothing => j = i
  | .maker _ (.generatorOf j) => j = i
  | .maker _ (.problem j) => j = i
  | .searcher j => j = i
  | .gradient j => j = i
  | .distribution (.generatorOf j) => j = i
  | .distribution (.problem j) => j = i
  | .bag (.generatorOf j) => j = i
  | .bag (.problem j) => j = i
  | _ => False

/-- A program that never draws with the generator of problem `i`: any other search, and any code that uses the global generators. -/
inductive Without (i : Nat) : Prog V A → Prop
  | done (a : A) : Without i (.done a)
  | draw (s : Site) (k : V → Prog V A) (hs : ¬ Mentions i s) (hk : ∀ v, Without i (k v)) : Without i (.draw s k)

/-- The program fed with the numbers of one seed, from a position on. -/
def fed (value : Nat → Nat → V) (seed : Nat) : Prog V (Except PyErr A) → Nat → Except PyErr A
  | .done a, _ => a
  | .draw _ k, n => fed value seed (k (value seed n)) (n + 1)

/-- `n` draws of it. -/
def fedFor (value : Nat → Nat → V) (seed : Nat) : Nat → Prog V (Except PyErr A) → Nat → Prog V (Except PyErr A)
  | 0, p, _ => p
  | _ + 1, .done a, _ => .done a
  | n + 1, .draw _ k, pos => fedFor value seed n (k (value seed pos)) (pos + 1)

/-! ### C134: which generator -/

/-- Every draw of a problem, its operators and its searchers comes from the problem's own generator if it has one, else from the global generator of PyTorch. -/
theorem C134_source (i : Nat) (s : Site) (h : Of i s) (w : World) :
    source w s = .ok (if (w.own i).isSome then .own i else .torch) := by
  have hg : ∀ j, j = i → ownOrGlobal w j = (if (w.own i).isSome then Source.own i else .torch) := by rintro j rfl; rfl
  cases s with
  | maker j a => cases a <;> simp_all [Of, source, makerArg, generatorKwargs]
  | searcher j => simp_all [Of, source, makerArg, generatorKwargs]
  | gradient j =>
    have : j = i := h
    subst this
    by_cases ho : (w.own j).isSome = true
    · simp only [source, ho, if_true, makerArg, generatorKwargs, ownOrGlobal]
    · simp only [source, ho, Bool.false_eq_true, if_false, makerArg, generatorKwargs]
  | distribution a => cases a <;> simp_all [Of, source, makerArg, generatorKwargs]
  | bag a => cases a <;> simp_all [Of, source, bagSource]
  | functional => exact h.elim
  | vecNoise j => exact h.elim
  | envSeed j => exact h.elim

/-- Something that is neither a generator nor has one is refused. -/
theorem C134_refused (i : Nat) (w : World) :
    source w (.maker i .other) = .error .typeError ∧ source w (.distribution .other) = .error .typeError ∧ source w (.bag .other) = .error .attributeError :=
  ⟨rfl, rfl, rfl⟩

/-! ### C134: seeded searches -/

theorem run_own (value : Nat → Nat → V) (i : Nat) (p : Prog V (Except PyErr A)) (hp : OnlyOf i p) (w : World) (g : Gen) (hg : w.own i = some g) :
    (run value p w).2 = fed value g.seed p g.pos ∧ (run value p w).1.torch = w.torch ∧ (run value p w).1.python = w.python ∧
      (∀ j, j ≠ i → (run value p w).1.own j = w.own j) ∧ ∃ n, (run value p w).1.own i = some ⟨g.seed, g.pos + n⟩ := by
  induction hp generalizing w g with
  | done a => exact ⟨rfl, rfl, rfl, fun _ _ => rfl, 0, hg⟩
  | draw s k hs hk ih =>
    have hsrc : source w s = .ok (.own i) := by rw [C134_source i s hs w]; simp [hg]
    have hd : drawFrom value w (.own i) =
        ({ w with own := fun j => if j = i then some { g with pos := g.pos + 1 } else w.own j }, value g.seed g.pos) := by simp [drawFrom, hg]
    obtain ⟨h1, h2, h3, h4, n, h5⟩ := ih (value g.seed g.pos) { w with own := fun j => if j = i then some { g with pos := g.pos + 1 } else w.own j }
      { g with pos := g.pos + 1 } (by simp)
    have hrun : run value (.draw s k) w =
        run value (k (value g.seed g.pos)) { w with own := fun j => if j = i then some { g with pos := g.pos + 1 } else w.own j } := by
      simp only [run, hsrc, hd]
    rw [hrun]
    refine ⟨h1, h2, h3, fun j hj => (h4 j hj).trans (by simp [hj]), n + 1, ?_⟩
    rw [h5]
    simp only [Option.some.injEq, Gen.mk.injEq, true_and]
    omega

/-- A search on a problem with its own generator: its result is that of the numbers of the seed, whatever the state of the global generators and of other problems'
generators; and it leaves all of them alone. -/
theorem C134_seeded (value : Nat → Nat → V) (i seed : Nat) (p : Prog V (Except PyErr A)) (hp : OnlyOf i p) (w : World) :
    let w0 := manualSeed i (some seed) w
    (run value p w0).2 = fed value seed p 0 ∧ (run value p w0).1.torch = w.torch ∧ (run value p w0).1.python = w.python ∧
      ∀ j, j ≠ i → (run value p w0).1.own j = w.own j := by
  obtain ⟨h1, h2, h3, h4, -⟩ := run_own value i p hp (manualSeed i (some seed) w) ⟨seed, 0⟩ (by simp [manualSeed])
  exact ⟨h1, h2, h3, fun j hj => (h4 j hj).trans (by simp [manualSeed, hj])⟩

/-- Without a generator of its own, the same search draws the numbers of the global generator of PyTorch: `torch.manual_seed` decides, and no other generator is touched. -/
theorem C134_unseeded (value : Nat → Nat → V) (i : Nat) (p : Prog V (Except PyErr A)) (hp : OnlyOf i p) (w : World) (hw : w.own i = none) :
    (run value p w).2 = fed value w.torch.seed p w.torch.pos ∧ (run value p w).1.own = w.own ∧ (run value p w).1.python = w.python := by
  induction hp generalizing w with
  | done a => exact ⟨rfl, rfl, rfl⟩
  | draw s k hs hk ih =>
    have hsrc : source w s = .ok .torch := by rw [C134_source i s hs w]; simp [hw]
    obtain ⟨h1, h2, h3⟩ := ih (value w.torch.seed w.torch.pos) { w with torch := { w.torch with pos := w.torch.pos + 1 } } hw
    have hrun : run value (.draw s k) w = run value (k (value w.torch.seed w.torch.pos)) { w with torch := { w.torch with pos := w.torch.pos + 1 } } := by
      simp only [run, hsrc, drawFrom]
    rw [hrun]
    exact ⟨h1, h2, h3⟩

/-- A program all of whose draws are seeds for environments. -/
inductive OnlyEnvSeeds : Prog V A → Prop
  | done (a : A) : OnlyEnvSeeds (.done a)
  | draw (i : Nat) (k : V → Prog V A) (hk : ∀ v, OnlyEnvSeeds (k v)) : OnlyEnvSeeds (.draw (.envSeed i) k)

/-- The seeds of the environments of `VecGymNE` are the numbers of Python's generator, one after the other: `random.seed` decides, whatever was drawn before, and no other generator is touched. -/
theorem C134_env_seeds (value : Nat → Nat → V) (seed : Nat) (p q : Prog V (Except PyErr A)) (hp : OnlyEnvSeeds p) (w : World) :
    let w0 := pythonSeed seed (run value q w).1
    (run value p w0).2 = fed value seed p 0 ∧ (run value p w0).1.own = w0.own ∧ (run value p w0).1.torch = w0.torch := by
  have key : ∀ w : World, (run value p w).2 = fed value w.python.seed p w.python.pos ∧ (run value p w).1.own = w.own ∧ (run value p w).1.torch = w.torch := by
    induction hp with
    | done a => exact fun w => ⟨rfl, rfl, rfl⟩
    | draw i k hk ih => exact fun w => ih (value w.python.seed w.python.pos) { w with python := { w.python with pos := w.python.pos + 1 } }
  exact key _

/-- `manual_seed(None)` gives the problem back to the global generator; seeding again starts the sequence again, however many numbers were drawn. -/
theorem C134_reseed (value : Nat → Nat → V) (i seed : Nat) (p q : Prog V (Except PyErr A)) (hp : OnlyOf i p) (w : World) :
    (run value p (manualSeed i (some seed) (run value q w).1)).2 = fed value seed p 0 ∧
      (manualSeed i none (run value q w).1).own i = none ∧
      (run value p (torchSeed seed (manualSeed i none (run value q w).1))).2 = fed value seed p 0 := by
  refine ⟨(C134_seeded value i seed p hp _).1, by simp [manualSeed], ?_⟩
  exact (C134_unseeded value i p hp (torchSeed seed (manualSeed i none (run value q w).1)) (by simp [manualSeed, torchSeed])).1

/-! ### C134: schedules -/

theorem stepProg_own (value : Nat → Nat → V) (i : Nat) (p : Prog V (Except PyErr A)) (hp : OnlyOf i p) (w : World) (g : Gen) (hg : w.own i = some g) :
    OnlyOf i (stepProg value w p).2 ∧ (stepProg value w p).2 = fedFor value g.seed 1 p g.pos ∧
      (∀ j, j ≠ i → (stepProg value w p).1.own j = w.own j) ∧
      ((∃ a, p = .done a ∧ (stepProg value w p).1.own i = some g) ∨
        ((∀ a, p ≠ .done a) ∧ (stepProg value w p).1.own i = some { g with pos := g.pos + 1 })) := by
  cases hp with
  | done a => exact ⟨.done a, rfl, fun _ _ => rfl, .inl ⟨a, rfl, hg⟩⟩
  | draw s k hs hk =>
    have hsrc : source w s = .ok (.own i) := by rw [C134_source i s hs w]; simp [hg]
    have hd : drawFrom value w (.own i) =
        ({ w with own := fun j => if j = i then some { g with pos := g.pos + 1 } else w.own j }, value g.seed g.pos) := by simp [drawFrom, hg]
    have hst : stepProg value w (.draw s k) =
        ({ w with own := fun j => if j = i then some { g with pos := g.pos + 1 } else w.own j }, k (value g.seed g.pos)) := by
      simp only [stepProg, hsrc, hd]
    rw [hst]
    exact ⟨hk _, rfl, fun j hj => by simp [hj], .inr ⟨by simp, by simp⟩⟩

theorem fedFor_done (value : Nat → Nat → V) (seed n : Nat) (a : Except PyErr A) (pos : Nat) : fedFor value seed n (.done a) pos = .done a := by
  cases n <;> rfl

theorem source_ne (i : Nat) (s : Site) (h : ¬ Mentions i s) (w : World) : source w s ≠ .ok (.own i) := by
  have hg : ∀ j, j ≠ i → ownOrGlobal w j ≠ Source.own i := by
    intro j hj
    unfold ownOrGlobal
    split
    · simpa using hj
    · simp
  cases s with
  | maker j a => cases a <;> simp_all [Mentions, source, makerArg, generatorKwargs]
  | searcher j => simp_all [Mentions, source, makerArg, generatorKwargs]
  | gradient j =>
    have hj : j ≠ i := h
    by_cases ho : (w.own j).isSome = true
    · simp only [source, ho, if_true, makerArg, generatorKwargs]
      simpa using hg j hj
    · simp only [source, ho, Bool.false_eq_true, if_false, makerArg, generatorKwargs]
      simp
  | distribution a => cases a <;> simp_all [Mentions, source, makerArg, generatorKwargs]
  | bag a => cases a <;> simp_all [Mentions, source, bagSource]
  | functional => simp [source]
  | vecNoise j => simp [source]
  | envSeed j => simp [source]

theorem drawFrom_own (value : Nat → Nat → V) (w : World) (src : Source) (i : Nat) (h : src ≠ .own i) : (drawFrom value w src).1.own i = w.own i := by
  cases src with
  | torch => rfl
  | python => rfl
  | own j =>
    have hj : j ≠ i := fun e => h (by rw [e])
    cases ho : w.own j <;> simp [drawFrom, ho, Ne.symm hj]

theorem stepProg_without (value : Nat → Nat → V) (i : Nat) (p : Prog V (Except PyErr A)) (hp : Without i p) (w : World) :
    Without i (stepProg value w p).2 ∧ (stepProg value w p).1.own i = w.own i := by
  cases hp with
  | done a => exact ⟨.done a, rfl⟩
  | draw s k hs hk =>
    have hne := source_ne i s hs w
    unfold stepProg
    cases hsrc : source w s with
    | error e => simp only [hsrc]; exact ⟨.done _, trivial⟩
    | ok src =>
      simp only [hsrc]
      refine ⟨hk _, drawFrom_own value w src i (fun e => hne (by rw [hsrc, e]))⟩

/-- Many searches in one process, whose draws are interleaved in any order, together with any other code that draws from the global generators: a search on a problem with its
own generator gets what it would get alone, as long as no other thread draws with that generator. -/
theorem C134_schedule (value : Nat → Nat → V) (ts : List Nat) (w : World) (ps : Nat → Prog V (Except PyErr A)) (t i : Nat) (hp : OnlyOf i (ps t)) (g : Gen)
    (hg : w.own i = some g) (hothers : ∀ u, u ≠ t → Without i (ps u)) :
    (runAll value ts w ps).2 t = fedFor value g.seed (ts.count t) (ps t) g.pos := by
  induction ts generalizing w ps g with
  | nil => rfl
  | cons u ts ih =>
    rw [runAll]
    by_cases hut : u = t
    · subst hut
      obtain ⟨h1, h2, -, h4⟩ := stepProg_own value i (ps u) hp w g hg
      have hrest : ∀ v, v ≠ u → Without i ((fun v => if v = u then (stepProg value w (ps u)).2 else ps v) v) := by
        intro v hv
        simp only [hv, if_false]
        exact hothers v hv
      rcases h4 with ⟨a, ha, hown⟩ | ⟨hnd, hown⟩
      · have := ih (stepProg value w (ps u)).1 (fun v => if v = u then (stepProg value w (ps u)).2 else ps v) (by simpa using h1) g hown hrest
        rw [this]
        have hpa : (stepProg value w (ps u)).2 = .done a := by rw [ha]; rfl
        simp only [if_true, hpa, fedFor_done]
        rw [ha, fedFor_done]
      · have := ih (stepProg value w (ps u)).1 (fun v => if v = u then (stepProg value w (ps u)).2 else ps v) (by simpa using h1) _ hown hrest
        rw [this]
        simp only [if_true, List.count_cons_self, h2]
        cases hpu : ps u with
        | done a => exact absurd hpu (hnd a)
        | draw s k => rfl
    · have hcount : (u :: ts).count t = ts.count t := by rw [List.count_cons_of_ne hut]
      obtain ⟨h1, h2⟩ := stepProg_without value i (ps u) (hothers u hut) w
      have := ih (stepProg value w (ps u)).1 (fun v => if v = u then (stepProg value w (ps u)).2 else ps v) (by simpa [Ne.symm hut] using hp) g (by rw [h2, hg]) (by
        intro v hv
        by_cases hvu : v = u
        · subst hvu; simpa using h1
        · simpa [hvu] using hothers v hv)
      rw [hcount, this]
      simp [Ne.symm hut]

/-! ### C134: what is not covered by the seed -/

/-- The noise on the actions of a `VecGymNE` and the seeds of its environments come from the global generators, whether or not the problem has its own: of the same seeded
problem, two runs can differ. -/
theorem C134_violated_vecgymne :
    ∃ (s : Site), (s = .vecNoise 0 ∨ s = .envSeed 0) ∧ ∃ (w w' : World), w.own 0 = some ⟨7, 0⟩ ∧ w'.own 0 = some ⟨7, 0⟩ ∧
      (run (fun a b => a + b) (.draw s fun v => .done (.ok v)) w).2 ≠ (run (fun a b => a + b) (.draw s fun v => .done (.ok v)) w').2 :=
  ⟨.vecNoise 0, .inl rfl, ⟨fun _ => some ⟨7, 0⟩, ⟨0, 0⟩, ⟨0, 0⟩⟩, ⟨fun _ => some ⟨7, 0⟩, ⟨1, 0⟩, ⟨0, 0⟩⟩, rfl, rfl, by simp [run, source, drawFrom]⟩

/-- So it is for both of them, and for every problem and seed. -/
theorem C134_global (i : Nat) (w : World) :
    source w (.vecNoise i) = .ok .torch ∧ source w (.envSeed i) = .ok .python ∧ source w .functional = .ok .torch ∧ source w (.distribution .nothing) = .ok .torch ∧
      source w (.bag .nothing) = .ok .torch := ⟨rfl, rfl, rfl, rfl, rfl⟩

/-- Two unseeded searches in one process do influence one another: the first one's result depends on the schedule. -/
theorem C134_unseeded_schedule :
    ∃ (w : World) (ps : Nat → Prog Nat (Except PyErr Nat)), w.own 0 = none ∧ w.own 1 = none ∧ OnlyOf 0 (ps 0) ∧ OnlyOf 1 (ps 1) ∧
      (runAll (fun a b => a + b) [0, 1] w ps).2 0 ≠ (runAll (fun a b => a + b) [1, 0] w ps).2 0 := by
  refine ⟨⟨fun _ => none, ⟨0, 0⟩, ⟨0, 0⟩⟩, fun i => .draw (.searcher i) fun v => .done (.ok v), rfl, rfl, .draw _ _ rfl fun _ => .done _,
    .draw _ _ rfl fun _ => .done _, ?_⟩
  simp [runAll, stepProg, source, makerArg, generatorKwargs, ownOrGlobal, drawFrom]

/-! ### Non-vacuity -/

/-- A search on problem `i`: initial population, sampling, a tournament; what is drawn later depends on what was drawn before. -/
def search (i : Nat) : Prog Nat (Except PyErr Nat) :=
  .draw (.maker i .nothing) fun a => .draw (.searcher i) fun b => if a < b then .draw (.gradient i) fun c => .done (.ok (a + b + c)) else .done (.ok a)

example (i : Nat) : OnlyOf i (search i) :=
  .draw _ _ rfl fun a => .draw _ _ rfl fun b => by
    by_cases h : a < b
    · simp only [h, if_true]; exact .draw _ _ rfl fun _ => .done _
    · simp only [h, if_false]; exact .done _
example : fed (fun a b => a + b) 7 (search 0) 0 = .ok 24 := rfl
def world0 : World := ⟨fun i => if i = 0 then some ⟨7, 0⟩ else none, ⟨100, 3⟩, ⟨0, 0⟩⟩
example : (run (fun a b => a + b) (search 0) world0).2 = .ok 24 ∧ (run (fun a b => a + b) (search 1) world0).2 = .ok 312 := ⟨rfl, rfl⟩
def other : Prog Nat (Except PyErr Nat) := .draw .functional fun a => .draw (.searcher 1) fun b => .draw (.envSeed 0) fun c => .done (.ok (a + b + c))
example : Without 0 other := .draw _ _ id fun _ => .draw _ _ (by simp [Mentions]) fun _ => .draw _ _ id fun _ => .done _

end EvoTorch.Randomness
