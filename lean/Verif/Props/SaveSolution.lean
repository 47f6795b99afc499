import Verif.Model.SaveSolution
/-!
C144: what saving a solution of a `GymNE` or a `VecGymNE` puts into the file.
-/
namespace EvoTorch.SaveSolution
open EvoTorch

variable {K P A : Type}

/-- The vector a solution stands for. -/
def valuesOf : Given K → List K
  | .tensor v => v.vals
  | .solution v => v.vals
  | .sequence l => l

/-- C144: if saving succeeds, the file holds the vector of the solution, as an ordinary tensor on the cpu, in its dtype, the policy exported for exactly this vector, the statistics of observations if and only if they are used and
there are any, the counters, the name of the environment if it has one and, for VecGymNE, the architecture; all other files are as before. Numbers given as a sequence must be representable as float32. -/
theorem C144_saved_partial (p : Problem K P A) (round32 : K → K) (pk : Pickle P A) (now : ℕ) (fs : Files K P A) (g : Given K) (fname : String)
    (hr : ∀ l, g = .sequence l → ∀ x ∈ l, round32 x = x) (h : (save p round32 pk now fs g fname).result = .ok ()) :
    ∃ s : Saved K P A, (save p round32 pk now fs g fname).state fname = some (.object s) ∧
      s.solution.vals = valuesOf g ∧ s.solution.device = "cpu" ∧ s.solution.readOnly = false ∧
      (∀ v, g = .tensor v ∨ g = .solution v → s.solution.dtype = v.dtype) ∧
      p.toPolicy s.solution = .ok s.policy ∧
      (∀ st, s.stats = some st ↔ p.obsnorm = true ∧ p.stats = .collected st) ∧
      s.interactionCount = p.interactionCount ∧ s.episodeCount = p.episodeCount ∧ s.env = p.envName ∧
      (p.kind = .vec → s.architecture = some p.architecture) ∧
      ∀ n, n ≠ fname → (save p round32 pk now fs g fname).state n = fs n := by
  unfold save at h ⊢
  cases hc : contents p round32 now g with
  | error e => rw [hc] at h; cases h
  | ok s =>
    rw [hc] at h
    simp only at h ⊢
    by_cases hp : pk.ok s = true
    · rw [if_pos hp]
      simp only [contents, bind, Except.bind] at hc
      cases hpo : p.toPolicy (asCpu round32 g) with
      | error e => rw [hpo] at hc; cases hc
      | ok po =>
        rw [hpo] at hc
        simp only at hc
        cases hst : statsOf p with
        | error e => rw [hst] at hc; cases hc
        | ok st =>
          rw [hst] at hc
          simp only [Except.ok.injEq] at hc
          subst hc
          have h32 : ∀ l, g = .sequence l → l.map round32 = l := by
            intro l hl
            have := hr l hl
            exact (List.map_congr_left this).trans (List.map_id l)
          refine ⟨_, if_pos rfl, ?_, ?_, ?_, ?_, hpo, ?_, rfl, rfl, rfl, ?_, ?_⟩
          · cases g with
            | tensor v => simp only [asCpu, valuesOf]; split <;> rfl
            | solution v => rfl
            | sequence l => exact h32 l rfl
          · cases g with
            | tensor v => simp only [asCpu]; split <;> rfl
            | solution v => rfl
            | sequence l => rfl
          · cases g with
            | tensor v =>
              simp only [asCpu]
              split
              · rfl
              · rename_i hro; simpa using hro
            | solution v => rfl
            | sequence l => rfl
          · intro v hv
            rcases hv with rfl | rfl
            · simp only [asCpu]; split <;> rfl
            · rfl
          · intro st'
            unfold statsOf at hst
            split at hst
            · rename_i ho
              cases hs : p.stats with
              | absent => rw [hs] at hst; cases hst; simp
              | empty => rw [hs] at hst; cases hst
              | collected s0 =>
                rw [hs] at hst
                cases hst
                simp [ho]
            · rename_i ho
              cases hst
              simp [ho]
          · intro hk; simp [keptArchitecture, hk]
          · intro n hn
            simp [put, hn]
    · rw [if_neg hp] at h; cases h

/-- C144: saving succeeds if the policy can be exported, what is saved can be pickled, and there are observations if the problem normalises them (VecGymNE: or nothing was evaluated yet). -/
theorem C144_succeeds_partial (p : Problem K P A) (round32 : K → K) (pk : Pickle P A) (now : ℕ) (fs : Files K P A) (g : Given K) (fname : String) (hpol : ∀ v, ∃ x, p.toPolicy v = .ok x)
    (hpk : ∀ x, pk.policy x = true) (hpa : p.kind = .vec → pk.architecture p.architecture = true) (hs : p.obsnorm = true → p.stats ≠ .empty) :
    (save p round32 pk now fs g fname).result = .ok () := by
  obtain ⟨x, hx⟩ := hpol (asCpu round32 g)
  have hst : ∃ st, statsOf p = .ok st := by
    unfold statsOf
    split
    · rename_i ho
      cases h : p.stats with
      | absent => exact ⟨_, rfl⟩
      | empty => exact absurd h (hs ho)
      | collected s => exact ⟨_, rfl⟩
    · exact ⟨_, rfl⟩
  obtain ⟨st, hst⟩ := hst
  have hc : contents p round32 now g = .ok ⟨asCpu round32 g, x, st, p.interactionCount, p.episodeCount, now, p.envName, keptArchitecture p⟩ := by
    simp only [contents, hx, hst, bind, Except.bind]
  unfold save
  rw [hc]
  simp only
  rw [if_pos]
  unfold Pickle.ok
  cases hk : p.kind with
  | gym => simp [hpk, keptArchitecture, hk]
  | vec => simp [hpk, keptArchitecture, hk, hpa hk]

/-- C144: if exporting or reading the statistics fails, all files are as before. -/
theorem C144_unharmed_partial (p : Problem K P A) (round32 : K → K) (pk : Pickle P A) (now : ℕ) (fs : Files K P A) (g : Given K) (fname : String)
    (h : (∃ e, p.toPolicy (asCpu round32 g) = .error e) ∨ (p.obsnorm = true ∧ p.stats = .empty)) :
    (save p round32 pk now fs g fname).state = fs ∧ ∃ e, (save p round32 pk now fs g fname).result = .error e := by
  have hc : ∃ e, contents p round32 now g = .error e := by
    rcases h with ⟨e, h⟩ | ⟨ho, hs⟩
    · exact ⟨e, by simp only [contents, h, bind, Except.bind]⟩
    · cases hp : p.toPolicy (asCpu round32 g) with
      | error e => exact ⟨e, by simp only [contents, hp, bind, Except.bind]⟩
      | ok x => exact ⟨_, by simp only [contents, hp, statsOf, ho, hs, if_true, bind, Except.bind]; rfl⟩
  obtain ⟨e, hc⟩ := hc
  simp [save, hc]

/-- C144 fails: a VecGymNE whose network was given as something which cannot be pickled (a local function) cannot save a solution, and the attempt destroys a file of that name; a GymNE in the same situation saves. -/
theorem C144_violated_architecture (p : Problem K P A) (round32 : K → K) (pk : Pickle P A) (now : ℕ) (fs : Files K P A) (g : Given K) (fname : String) (hpol : ∀ v, ∃ x, p.toPolicy v = .ok x)
    (hpk : ∀ x, pk.policy x = true) (hs : p.obsnorm = true → p.stats ≠ .empty) (ha : pk.architecture p.architecture = false) :
    (p.kind = .vec → (save p round32 pk now fs g fname).result = .error .otherError ∧ (save p round32 pk now fs g fname).state fname = some .broken) ∧
    (p.kind = .gym → (save p round32 pk now fs g fname).result = .ok ()) := by
  constructor
  · intro hk
    obtain ⟨x, hx⟩ := hpol (asCpu round32 g)
    have hst : ∃ st, statsOf p = .ok st := by
      unfold statsOf
      split
      · rename_i ho
        cases h : p.stats with
        | absent => exact ⟨_, rfl⟩
        | empty => exact absurd h (hs ho)
        | collected s => exact ⟨_, rfl⟩
      · exact ⟨_, rfl⟩
    obtain ⟨st, hst⟩ := hst
    simp [save, contents, hx, hst, bind, Except.bind, Pickle.ok, keptArchitecture, hk, ha, put]
  · intro hk
    exact C144_succeeds_partial p round32 pk now fs g fname hpol hpk (by simp [hk]) hs

/-- C144 fails: numbers given as a sequence are saved, and exported as a policy, rounded to float32, whatever the dtype of the problem. -/
theorem C144_violated_sequence (p : Problem K P A) (round32 : K → K) (pk : Pickle P A) (now : ℕ) (fs : Files K P A) (l : List K) (fname : String) (x : K) (hx : x ∈ l) (hr : round32 x ≠ x) (s : Saved K P A)
    (h : (save p round32 pk now fs (.sequence l) fname).result = .ok ()) (hs : (save p round32 pk now fs (.sequence l) fname).state fname = some (.object s)) :
    s.solution.vals ≠ l ∧ s.solution.dtype = "float32" ∧ p.toPolicy s.solution = .ok s.policy := by
  unfold save at h hs
  cases hc : contents p round32 now (.sequence l) with
  | error e => rw [hc] at h; cases h
  | ok s' =>
    rw [hc] at h hs
    simp only at h hs
    by_cases hp : pk.ok s' = true
    · rw [if_pos hp] at hs
      simp only [put, if_true, Option.some.injEq, File.object.injEq] at hs
      subst hs
      simp only [contents, bind, Except.bind] at hc
      cases hpo : p.toPolicy (asCpu round32 (.sequence l)) with
      | error e => rw [hpo] at hc; cases hc
      | ok po =>
        rw [hpo] at hc
        simp only at hc
        cases hst : statsOf p with
        | error e => rw [hst] at hc; cases hc
        | ok st =>
          rw [hst] at hc
          simp only [Except.ok.injEq] at hc
          subst hc
          refine ⟨fun he => hr ?_, rfl, hpo⟩
          have he' : l.map round32 = l.map id := by rw [List.map_id]; exact he
          exact (List.map_inj_left.1 he') x hx
    · rw [if_neg hp] at h; cases h

/-- A problem for the examples: the policy is the vector itself. -/
def exProblem (kind : Kind) : Problem ℕ (Vec ℕ) Bool := ⟨kind, fun v => .ok v, true, .collected ⟨[1], [2], [3], [4]⟩, 10, 2, some "CartPole-v1", true⟩

example : (save (exProblem .vec) (fun n => n / 2 * 2) ⟨fun _ => true, id⟩ 5 (fun _ => none) (.solution ⟨[3], "float64", "cuda", true⟩) "x").result = .ok () := rfl
example : (∀ v, ∃ x, (exProblem .vec).toPolicy v = .ok x) ∧ ((exProblem .vec).obsnorm = true → (exProblem .vec).stats ≠ .empty) := ⟨fun v => ⟨v, rfl⟩, fun _ h => (by cases h)⟩
example : (save (exProblem .vec) id ⟨fun _ => true, fun _ => false⟩ 5 (fun _ => some (.other "old")) (.sequence [3]) "x").state "x" = some .broken := rfl

end EvoTorch.SaveSolution
