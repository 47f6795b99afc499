import Verif.Model.PyCMAES
import Verif.Props.BatchAccess
import Mathlib.Algebra.Order.Ring.Rat
import Mathlib.Algebra.Field.Rat
/-!
C117: the searcher built on the external CMA-ES package is the plain ask/tell loop of that package on the objective, whatever its sense; and its settings reach the package.
-/
namespace EvoTorch.PyCMAES
open EvoTorch EvoTorch.BatchAccess

/-! ### Options: specification -/

section
variable {W : Type}

/-- The names under which the package knows the named arguments of the constructor. -/
def named (a : Named W) : String → Option W
  | "popsize" => a.popsize
  | "CMA_cmean" => a.centerLearningRate
  | "CMA_on" => a.covLearningRate
  | "CMA_rankmu" => a.rankmuLearningRate
  | "CMA_rankone" => a.rankoneLearningRate
  | "minstd" => a.stdevMin
  | "maxstd" => a.stdevMax
  | "CMA_diagonal" => a.separable
  | _ => none

/-- What the package must be told: the bounds of the problem, then the named argument, then the entry of `cma_options`, then the defaults of the wrapper. -/
def expected (L : Lib W) (user : Opts W) (a : Named W) (lower upper : Option W) (key : String) : Option W :=
  (if key = "bounds" ∧ (lower ≠ none ∨ upper ≠ none) then some (L.pair (lower.getD L.noLower) (upper.getD L.noUpper)) else none)
    <|> named a key <|> get user key <|> (if key = "maxiter" then some L.inf else if key = "seed" then some L.drawnSeed else none)

theorem has_iff (o : Opts W) (k : String) : has o k = true ↔ get o k ≠ none := by
  simp only [has, get, ne_eq, Option.map_eq_none_iff, List.find?_eq_none, List.any_eq_true]
  push Not
  rfl

theorem get_put (o : Opts W) (k k' : String) (v : W) : get (put o k v) k' = if k' = k then some v else get o k' := by
  unfold put
  by_cases h : has o k = true
  · rw [if_pos h]
    induction o with
    | nil => simp [has] at h
    | cons e rest ih =>
      simp only [get, List.map_cons, List.find?_cons] at *
      by_cases he : e.1 = k
      · by_cases hk : k' = k
        · subst hk; simp [he]
        · have h1 : (e.1 == k') = false := by simpa [he] using fun h => hk h.symm
          have h2 : ((if (e.1 == k) = true then (e.1, v) else e).1 == k') = false := by split <;> simpa using h1
          simp only [h1, h2, if_neg hk]
          clear ih h
          induction rest with
          | nil => rfl
          | cons e' rest ih' =>
            simp only [List.map_cons, List.find?_cons]
            have h3 : (if (e'.1 == k) = true then (e'.1, v) else e').1 = e'.1 := by split <;> rfl
            rw [h3]
            cases h4 : e'.1 == k'
            · simpa using ih'
            · have : ¬ e'.1 = k := by intro h5; simp [h5] at h4; exact hk h4.symm
              simp [this]
      · have h1 : (e.1 == k) = false := by simpa using he
        have h3 : has rest k = true := by simpa [has, h1] using h
        simp only [h1]
        cases h4 : e.1 == k'
        · simpa [h4] using ih h3
        · have : k' ≠ k := by intro h5; simp at h4; exact he (h4.trans h5)
          simp [this, h4]
  · rw [if_neg h]
    have h' : get o k = none := by
      by_contra hn; exact h ((has_iff o k).2 hn)
    simp only [get, List.find?_append, List.find?_cons, List.find?_nil]
    by_cases hk : k' = k
    · subst hk
      simp only [get, Option.map_eq_none_iff] at h'
      rw [h']; simp
    · have : (k == k') = false := by simpa using fun h => hk h.symm
      rw [this, if_neg hk]; simp

theorem store_ok (o o' : Opts W) (k : String) (v : Option W) (h : storeOpt o k v = .ok o') : ∀ k', get o' k' = if k' = k then (v <|> get o k) else get o k' := by
  intro k'
  cases v with
  | none =>
    simp only [storeOpt, Except.ok.injEq] at h; subst h
    split
    · next h => subst h; rfl
    · rfl
  | some v =>
    simp only [storeOpt] at h
    split at h
    · cases h
    · simp only [Except.ok.injEq] at h; subst h
      rw [get_put]; rfl

theorem store_refuses (o : Opts W) (k : String) (v : Option W) : (∃ o', storeOpt o k v = .ok o' ∧ ¬ (v ≠ none ∧ get o k ≠ none)) ∨
    (storeOpt o k v = .error .valueError ∧ v ≠ none ∧ get o k ≠ none) := by
  cases v with
  | none => exact .inl ⟨o, rfl, by simp⟩
  | some v =>
    by_cases h : has o k = true
    · exact .inr ⟨by simp [storeOpt, h], by simp, (has_iff o k).1 h⟩
    · exact .inl ⟨put o k v, by simp [storeOpt, h], by
        rintro ⟨-, h2⟩; exact h ((has_iff o k).2 h2)⟩

/-- Storing a list of entries with distinct keys. -/
theorem store_all (es : List (String × Option W)) (hd : (es.map Prod.fst).Nodup) : ∀ o : Opts W,
    ((∃ e ∈ es, e.2 ≠ none ∧ get o e.1 ≠ none) → es.foldlM (fun o e => storeOpt o e.1 e.2) o = .error .valueError) ∧
    ((∀ e ∈ es, e.2 ≠ none → get o e.1 = none) → ∃ o', es.foldlM (fun o e => storeOpt o e.1 e.2) o = .ok o' ∧
      ∀ k, get o' k = ((es.find? fun e => e.1 == k).bind Prod.snd <|> get o k)) := by
  induction es with
  | nil => exact fun o => ⟨by simp, fun _ => ⟨o, rfl, by simp⟩⟩
  | cons e rest ih =>
    intro o
    simp only [List.map_cons, List.nodup_cons] at hd
    have hne : ∀ e' ∈ rest, e'.1 ≠ e.1 := fun e' he' h => hd.1 (List.mem_map.2 ⟨e', he', h⟩)
    rw [List.foldlM_cons]
    refine ⟨fun h => ?_, fun h => ?_⟩
    · rcases store_refuses o e.1 e.2 with ⟨o', h1, h2⟩ | ⟨h1, -⟩
      · rw [h1]
        obtain ⟨e', he', h3, h4⟩ := h
        rcases List.mem_cons.1 he' with rfl | he'
        · exact absurd ⟨h3, h4⟩ h2
        · refine (ih hd.2 o').1 ⟨e', he', h3, ?_⟩
          rw [store_ok _ _ _ _ h1, if_neg (hne e' he')]; exact h4
      · rw [h1]; rfl
    · rcases store_refuses o e.1 e.2 with ⟨o1, h1, h2⟩ | ⟨h1, h2, h3⟩
      · rw [h1]
        have hs := store_ok _ _ _ _ h1
        obtain ⟨o2, h3, h4⟩ := (ih hd.2 o1).2 fun e' he' hv => by
          rw [hs, if_neg (hne e' he')]; exact h e' (List.mem_cons_of_mem _ he') hv
        refine ⟨o2, h3, fun k => ?_⟩
        rw [h4, hs, List.find?_cons]
        by_cases hk : k = e.1
        · subst hk
          have : rest.find? (fun e' => e'.1 == e.1) = none := by
            rw [List.find?_eq_none]; intro e' he'; simpa using hne e' he'
          simp [this]
        · have : (e.1 == k) = false := by simpa using fun h => hk h.symm
          simp [this, hk]
      · exact absurd (h e List.mem_cons_self h2) h3

theorem entries_find (a : Named W) (k : String) : ((a.entries.find? fun e => e.1 == k).bind Prod.snd) = named a k := by
  simp only [Named.entries, List.find?_cons, List.find?_nil]
  by_cases h1 : k = "popsize"; · subst h1; rfl
  by_cases h2 : k = "CMA_cmean"; · subst h2; rfl
  by_cases h3 : k = "CMA_on"; · subst h3; rfl
  by_cases h4 : k = "CMA_rankmu"; · subst h4; rfl
  by_cases h5 : k = "CMA_rankone"; · subst h5; rfl
  by_cases h6 : k = "minstd"; · subst h6; rfl
  by_cases h7 : k = "maxstd"; · subst h7; rfl
  by_cases h8 : k = "CMA_diagonal"; · subst h8; rfl
  have hf : ∀ s : String, k ≠ s → (s == k) = false := fun s h => by simpa using fun h' => h h'.symm
  rw [hf _ h1, hf _ h2, hf _ h3, hf _ h4, hf _ h5, hf _ h6, hf _ h7, hf _ h8]
  unfold named
  split <;> simp_all

theorem entries_mem (a : Named W) (e : String × Option W) (he : e ∈ a.entries) : named a e.1 = e.2 ∧ e.1 ≠ "maxiter" ∧ e.1 ≠ "seed" ∧ e.1 ≠ "bounds" := by
  simp only [Named.entries, List.mem_cons, List.not_mem_nil, or_false] at he
  rcases he with rfl | rfl | rfl | rfl | rfl | rfl | rfl | rfl <;> exact ⟨rfl, by dsimp only; decide, by dsimp only; decide, by dsimp only; decide⟩

theorem named_mem (a : Named W) (k : String) (h : named a k ≠ none) : (k, named a k) ∈ a.entries := by
  have hf := entries_find a k
  cases hx : a.entries.find? fun e => e.1 == k with
  | none => rw [hx] at hf; exact absurd hf.symm h
  | some e =>
    rw [hx] at hf
    have h1 := List.mem_of_find?_eq_some hx
    have h2 : (e.1 == k) = true := by simpa using List.find?_some hx
    have h3 : e = (k, named a k) := by
      simp only [beq_iff_eq] at h2
      rw [← hf, ← h2]; rfl
    rw [← h3]; exact h1

/-- **C117 (settings).** The constructor raises a ValueError exactly when an option is given both as a named argument and in `cma_options`. Otherwise the package is told, for every key: the bounds
of the problem (an absent side being unlimited), every named argument, every other entry of `cma_options`, no limit of iterations and a seed drawn from the problem unless the user gave them,
and nothing else; the generator of the problem is used if and only if the user gave no seed. -/
theorem C117_options_partial (L : Lib W) (user : Opts W) (a : Named W) (lower upper : Option W) :
    ((∃ k, named a k ≠ none ∧ get user k ≠ none) → options L user a lower upper = .error .valueError) ∧
    ((∀ k, named a k ≠ none → get user k = none) → ∃ o drew, options L user a lower upper = .ok (o, drew) ∧ (drew = true ↔ get user "seed" = none) ∧
      ∀ k, get o k = expected L user a lower upper k) := by
  have ho : ∀ k, get (if has user "maxiter" then user else put user "maxiter" L.inf) k = (get user k <|> if k = "maxiter" then some L.inf else none) := by
    intro k
    by_cases h : has user "maxiter" = true
    · rw [if_pos h]
      by_cases hk : k = "maxiter"
      · subst hk
        have := (has_iff _ _).1 h
        cases hg : get user "maxiter" with
        | none => exact absurd hg this
        | some v => rfl
      · simp [hk]
    · rw [if_neg h, get_put]
      by_cases hk : k = "maxiter"
      · subst hk
        have : get user "maxiter" = none := by by_contra hn; exact h ((has_iff _ _).2 hn)
        simp [this]
      · simp [hk]
  have hnd : (a.entries.map Prod.fst).Nodup := by simp only [Named.entries, List.map_cons, List.map_nil]; decide
  generalize hO : (if has user "maxiter" then user else put user "maxiter" L.inf) = o at ho
  have hs := store_all a.entries hnd o
  refine ⟨?_, fun h => ?_⟩
  · rintro ⟨k, h1, h2⟩
    simp only [options, hO]
    rw [hs.1 ⟨_, named_mem a k h1, h1, ?_⟩]
    · rfl
    · rw [ho]
      cases hg : get user k with
      | none => exact absurd hg h2
      | some v => simp [hg]
  · obtain ⟨o2, h3, h4⟩ := hs.2 fun e he hv => by
      obtain ⟨g1, g2, -⟩ := entries_mem a e he
      rw [ho, h e.1 (by rw [g1]; exact hv), if_neg g2]; rfl
    have h5 : ∀ k, get (putBounds o2 (boundsEntry L lower upper)) k =
        ((if k = "bounds" ∧ (lower ≠ none ∨ upper ≠ none) then some (L.pair (lower.getD L.noLower) (upper.getD L.noUpper)) else none) <|> named a k <|> get user k <|>
          if k = "maxiter" then some L.inf else none) := by
      intro k
      have h6 : get o2 k = (named a k <|> get user k <|> if k = "maxiter" then some L.inf else none) := by rw [h4, entries_find, ho]
      cases lower <;> cases upper <;> simp only [boundsEntry, putBounds] <;> first
        | (rw [h6]; simp)
        | (rw [get_put, h6]; by_cases hk : k = "bounds" <;> simp [hk])
    generalize hB : (putBounds o2 (boundsEntry L lower upper)) = o3 at h5
    have h7 : get o3 "seed" = get user "seed" := by
      rw [h5]
      have : named a "seed" = none := rfl
      rw [this]
      simp
    by_cases h8 : has o3 "seed" = true
    · refine ⟨o3, false, ?_, ?_, fun k => ?_⟩
      · simp only [options, hO, h3, bind, Except.bind]
        rw [hB, if_pos h8]; rfl
      · rw [← h7]
        simpa using (has_iff _ _).1 h8
      · rw [h5]
        by_cases hk : k = "seed"
        · subst hk
          have := (has_iff _ _).1 h8
          rw [h7] at this
          have hn : named a "seed" = none := rfl
          cases hg : get user "seed" with
          | none => exact absurd hg this
          | some v => simp [expected, hn, hg]
        · simp [expected, hk]
    · refine ⟨put o3 "seed" L.drawnSeed, true, ?_, ?_, fun k => ?_⟩
      · simp only [options, hO, h3, bind, Except.bind]
        rw [hB, if_neg h8]; rfl
      · rw [← h7]
        have : get o3 "seed" = none := by by_contra hn; exact h8 ((has_iff _ _).2 hn)
        simp [this]
      · have h9 : get o3 "seed" = none := by by_contra hn; exact h8 ((has_iff _ _).2 hn)
        rw [get_put, h5]
        by_cases hk : k = "seed"
        · subst hk
          have hn : named a "seed" = none := rfl
          rw [h7] at h9
          simp [expected, hn, h9]
        · simp [expected, hk]

/-- **C117 (violated part).** Bounds given in `cma_options` to a problem which has bounds are dropped without an error: the constructor succeeds and the package does not see them. -/
theorem C117_bounds_violated : ∃ (L : Lib ℕ) (user : Opts ℕ) (lower upper : Option ℕ), get user "bounds" = some 7 ∧ ∃ o drew, options L user {} lower upper = .ok (o, drew) ∧
    get o "bounds" ≠ some 7 :=
  ⟨⟨100, 0, 99, fun a b => 1000 + 10 * a + b, 5⟩, [("bounds", 7)], some 1, some 2, rfl, _, _, rfl, by decide⟩

/-- The hypotheses of `C117_options_partial` on a concrete case: a population size, a user option, one-sided bounds; and the refused case. -/
example : (∃ o, options (⟨100, 0, 99, fun a b => 1000 + 10 * a + b, 5⟩ : Lib ℕ) [("tolx", 3)] { popsize := some 20 } (some 1) none = .ok (o, true) ∧
      get o "popsize" = some 20 ∧ get o "tolx" = some 3 ∧ get o "maxiter" = some 100 ∧ get o "bounds" = some 1109 ∧ get o "seed" = some 5 ∧ get o "CMA_on" = none) ∧
    options (⟨100, 0, 99, fun a b => 1000 + 10 * a + b, 5⟩ : Lib ℕ) [("popsize", 3)] { popsize := some 20 } none none = .error .valueError :=
  ⟨⟨_, rfl, by decide, by decide, by decide, by decide, by decide, by decide⟩, rfl⟩

end

/-! ### The loop -/

section
variable {S V K : Type} [Field K] [LinearOrder K] [IsStrictOrderedRing K]

/-- The cost of a solution for the package, which minimises: the fitness of the objective, with its sign changed if the objective is to be maximised. -/
def cost (P : Prob V K) (j : ℕ) (v : V) : Flt K :=
  if P.descending.getD j false then ((P.fitness (P.cast v)).getD j .nan).neg else (P.fitness (P.cast v)).getD j .nan

/-- The plain loop of the package on a cost function. -/
def plain (E : Es S V K) (c : V → Flt K) : ℕ → S → S
  | 0, s => s
  | n + 1, s => plain E c n (E.tell (E.ask s).1 (E.ask s).2 ((E.ask s).2.map c))

/-- The state of the package after `n` generations of the plain loop, just after it was asked again: what it proposes in generation `n`. -/
def proposed (E : Es S V K) (c : V → Flt K) (n : ℕ) (s : S) : List V := (E.ask (plain E c n s)).2

/-- What one step does. -/
theorem step_eq (E : Es S V K) (P : Prob V K) (j : ℕ) (hj : j < P.descending.length) (hw : ∀ v, P.descending.length ≤ (P.fitness v).length) (s : State S V K)
    (hn : (E.ask s.es).2.length = s.values.length) :
    ((∀ v ∈ (E.ask s.es).2, (P.fitness (P.cast v)).getD j .nan ≠ .nan) → step E P (j : Int) s =
      ⟨⟨E.tell (E.ask s.es).1 (E.ask s.es).2 ((E.ask s.es).2.map (cost P j)), (E.ask s.es).2.map P.cast, ((E.ask s.es).2.map P.cast).map P.fitness⟩, .ok ()⟩) ∧
    ((∃ v ∈ (E.ask s.es).2, (P.fitness (P.cast v)).getD j .nan = .nan) → step E P (j : Int) s =
      ⟨⟨(E.ask s.es).1, (E.ask s.es).2.map P.cast, ((E.ask s.es).2.map P.cast).map P.fitness⟩, .error .valueError⟩) := by
  have hu := utilityOf_eq P.descending (((E.ask s.es).2.map P.cast).map P.fitness) none true j hj (by
    intro row hr
    obtain ⟨v, -, rfl⟩ := List.mem_map.1 hr
    exact hw v)
  refine ⟨fun h => ?_, ?_⟩
  · rw [if_neg] at hu
    · simp only [step, if_neg (by simpa using hn : ¬ (E.ask s.es).2.length ≠ s.values.length), hu]
      rw [List.map_map, List.map_map, List.map_map]
      congr 3
      apply List.map_congr_left
      intro v _
      simp only [Function.comp, cost, signed, List.getD_eq_getElem?_getD, List.getElem?_eq_getElem hj, Option.getD_some]
      split
      · rfl
      · cases ((P.fitness (P.cast v))[j]?.getD Flt.nan) <;> simp [Flt.neg]
    · rintro ⟨-, row, hr, hx⟩
      simp only [List.map_map, List.mem_map, Function.comp] at hr
      obtain ⟨v, hv, rfl⟩ := hr
      exact h v hv hx
  · rintro ⟨v, hv, hx⟩
    rw [if_pos ⟨rfl, P.fitness (P.cast v), by simp only [List.map_map, List.mem_map, Function.comp]; exact ⟨v, hv, rfl⟩, hx⟩] at hu
    simp only [step, if_neg (by simpa using hn : ¬ (E.ask s.es).2.length ≠ s.values.length), hu]

/-- **C117 (refinement).** As long as every proposed solution has a fitness, `n` generations of the searcher leave the package exactly where `n` rounds of its own ask/tell loop on the cost
function leave it, and the population holds the proposals of the last round with their evaluations. -/
theorem C117_is_plain_loop (E : Es S V K) (P : Prob V K) (j : ℕ) (hj : j < P.descending.length) (hw : ∀ v, P.descending.length ≤ (P.fitness v).length) :
    ∀ (n : ℕ) (s : State S V K), (∀ i < n, (proposed E (cost P j) i s.es).length = s.values.length) →
      (∀ i < n, ∀ v ∈ proposed E (cost P j) i s.es, (P.fitness (P.cast v)).getD j .nan ≠ .nan) →
      (run E P (j : Int) n s).result = .ok () ∧ (run E P (j : Int) n s).state.es = plain E (cost P j) n s.es ∧
      (∀ m, n = m + 1 → (run E P (j : Int) n s).state.values = (proposed E (cost P j) m s.es).map P.cast ∧
        (run E P (j : Int) n s).state.evals = (proposed E (cost P j) m s.es).map fun v => P.fitness (P.cast v)) := by
  intro n
  induction n with
  | zero => intro s _ _; exact ⟨rfl, rfl, fun m hm => by omega⟩
  | succ n ih =>
    intro s hl hf
    have h1 := (step_eq E P j hj hw s (hl 0 (by omega))).1 (hf 0 (by omega))
    have hp : ∀ i, proposed E (cost P j) i (E.tell (E.ask s.es).1 (E.ask s.es).2 ((E.ask s.es).2.map (cost P j))) = proposed E (cost P j) (i + 1) s.es := fun i => rfl
    have hr : run E P (j : Int) (n + 1) s = run E P (j : Int) n
        ⟨E.tell (E.ask s.es).1 (E.ask s.es).2 ((E.ask s.es).2.map (cost P j)), (E.ask s.es).2.map P.cast, ((E.ask s.es).2.map P.cast).map P.fitness⟩ := by
      simp only [run, h1]
    have hl0 := hl 0 (by omega)
    obtain ⟨a1, a2, a3⟩ := ih ⟨E.tell (E.ask s.es).1 (E.ask s.es).2 ((E.ask s.es).2.map (cost P j)), (E.ask s.es).2.map P.cast, ((E.ask s.es).2.map P.cast).map P.fitness⟩
      (fun i hi => by rw [hp, hl (i + 1) (by omega)]; simp only [List.length_map]; exact hl0.symm)
      (fun i hi v hv => hf (i + 1) (by omega) v hv)
    rw [hr]
    refine ⟨a1, a2, fun m hm => ?_⟩
    obtain rfl : m = n := by omega
    cases m with
    | zero => exact ⟨rfl, by simp only [run, List.map_map]; rfl⟩
    | succ m => exact a3 m rfl

/-- **C117 (direction).** The cost of a solution is lower exactly when its fitness is better in the sense of the objective. -/
theorem C117_cost_order (P : Prob V K) (j : ℕ) (hj : j < P.descending.length) (v w : V) :
    Flt.lt (cost P j v) (cost P j w) = true ↔ Better P.descending[j] ((P.fitness (P.cast v)).getD j .nan) ((P.fitness (P.cast w)).getD j .nan) := by
  simp only [cost, List.getD_eq_getElem?_getD, List.getElem?_eq_getElem hj, Option.getD_some, Better]
  split
  · cases (P.fitness (P.cast v))[j]?.getD Flt.nan <;> cases (P.fitness (P.cast w))[j]?.getD Flt.nan <;> simp [Flt.neg, Flt.lt]
  · rfl

/-- **C117 (missing fitness).** A proposed solution without a fitness makes the step raise a ValueError; the package was asked but is told nothing, and the population holds the proposals with
their evaluations. -/
theorem C117_missing_fitness (E : Es S V K) (P : Prob V K) (j : ℕ) (hj : j < P.descending.length) (hw : ∀ v, P.descending.length ≤ (P.fitness v).length) (s : State S V K)
    (hn : (E.ask s.es).2.length = s.values.length) (hx : ∃ v ∈ (E.ask s.es).2, (P.fitness (P.cast v)).getD j .nan = .nan) :
    (step E P (j : Int) s).result = .error .valueError ∧ (step E P (j : Int) s).state.es = (E.ask s.es).1 ∧
      (step E P (j : Int) s).state.values = (E.ask s.es).2.map P.cast ∧ (step E P (j : Int) s).state.evals = (E.ask s.es).2.map fun v => P.fitness (P.cast v) := by
  rw [(step_eq E P j hj hw s hn).2 hx]
  exact ⟨rfl, rfl, rfl, by simp [Function.comp_def]⟩

/-- **C117 (symmetry).** Maximising an objective and minimising its negation drive the package through the same states. -/
theorem C117_max_is_min_of_negation (E : Es S V K) (cast : V → V) (f : V → Flt K) (n : ℕ) (s : S) :
    plain E (cost ⟨[true], cast, fun v => [f v]⟩ 0) n s = plain E (cost ⟨[false], cast, fun v => [(f v).neg]⟩ 0) n s := rfl

/-- A package which remembers what it was told, on a two-objective problem: the second objective is maximised; every solution has a fitness. -/
def recorder : Es (List (List ℚ × List (Flt ℚ))) ℚ ℚ := ⟨fun s => (s, [1, 2, s.length]), fun s v c => s ++ [(v, c)]⟩

/-- The problem of the example. -/
def twoObjectives : Prob ℚ ℚ := ⟨[false, true], fun v => v, fun v => [.fin v, .fin (10 - v)]⟩

example : (run recorder twoObjectives 1 2 ⟨[], [0, 0, 0], []⟩).result = .ok () ∧
    (run recorder twoObjectives 1 2 ⟨[], [0, 0, 0], []⟩).state.es = plain recorder (cost twoObjectives 1) 2 [] := by
  have h := C117_is_plain_loop recorder twoObjectives 1 (by decide) (fun v => by simp [twoObjectives]) 2 ⟨[], [0, 0, 0], []⟩ (fun i _ => rfl) (fun i _ v _ => by simp [twoObjectives])
  exact ⟨h.1, h.2.1⟩

/-- Concrete costs told by the example: `-(10 - v)` for the vectors 1, 2, 0. -/
example : plain recorder (cost twoObjectives 1) 1 [] = [([1, 2, 0], [.fin (-9), .fin (-8), .fin (-10)])] := by decide +kernel

/-- A problem whose fitness is missing at 2. -/
example : (step recorder ⟨[false], fun v => v, fun v => [if v = 2 then .nan else .fin v]⟩ 0 ⟨[], [0, 0, 0], []⟩).result = .error .valueError :=
  (C117_missing_fitness recorder ⟨[false], fun v => v, fun v => [if v = 2 then .nan else .fin v]⟩ 0 (by decide) (fun v => by simp) ⟨[], [0, 0, 0], []⟩ rfl
    ⟨2, by simp [recorder], by simp⟩).1

end
end EvoTorch.PyCMAES
