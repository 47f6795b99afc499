import Verif.Model.SearchCopies
import Mathlib.Data.List.Induction
/-!
C149: copies of searches and of their loggers.
-/
namespace EvoTorch.SearchCopies
variable {σ D : Type}

/-! ### Specification: what each search has been through -/

/-- For each search, whether it is alive, its initial state and everything it has drawn since; copies inherit the past of the original. -/
def past : List (Bool × σ × List D) → Op σ D → List (Bool × σ × List D)
  | h, .new s => h ++ [(true, s, [])]
  | h, .step i d => h.modify i fun p => if p.1 then (true, p.2.1, p.2.2 ++ [d]) else p
  | h, .copy i => match h[i]? with
    | some (true, p) => h ++ [(true, p)]
    | _ => h
  | h, .drop i => h.modify i fun p => (false, p.2)
  | h, .attach _ _ _ => h
  | h, .finish _ => h

/-- The pasts of all searches after a history. -/
def pasts (ops : List (Op σ D)) : List (Bool × σ × List D) := ops.foldl past []

/-- The state of a search with such a past: nothing but its own draws. -/
def outcome (f : σ → D → σ) (p : Bool × σ × List D) : Bool × σ × Nat := (p.1, p.2.2.foldl f p.2.1, p.2.2.length)

/-- A history in which no search is copied. -/
def noCopies (ops : List (Op σ D)) : Prop := ∀ op ∈ ops, ∀ i, op ≠ .copy i

/-! ### Proofs -/

/-- What is seen of a search without its loggers. -/
def core (s : Search σ) : Bool × σ × Nat := (s.alive, s.state, s.gen)

theorem deref_some {ss : List (Search σ)} {i : Nat} {s : Search σ} : deref ss i = some s ↔ ss[i]? = some s ∧ s.alive = true := by
  unfold deref
  cases ss[i]? with
  | none => simp
  | some t =>
    cases h : t.alive with
    | false => simp [h]; rintro rfl; exact h
    | true => simp [h]; rintro rfl; exact h

theorem deref_none {ss : List (Search σ)} {i : Nat} (h : deref ss i = none) : ∀ s, ss[i]? = some s → s.alive = false := by
  intro s hs
  unfold deref at h
  rw [hs] at h
  cases ha : s.alive with
  | false => rfl
  | true => simp [ha] at h

theorem core_set {ss : List (Search σ)} {i : Nat} {s t : Search σ} (h : ss[i]? = some s) (hc : core t = core s) : (ss.set i t).map core = ss.map core := by
  apply List.ext_getElem?
  intro j
  rw [List.getElem?_map, List.getElem?_map, List.getElem?_set]
  split
  · rename_i e; subst e
    obtain ⟨hlt, he⟩ := List.getElem?_eq_some_iff.1 h
    simp [hlt, hc, ← he]
  · rfl

theorem cores (f : σ → D → σ) (ops : List (Op σ D)) : (run f ops).searches.map core = (pasts ops).map (outcome f) := by
  induction ops using List.reverseRecOn with
  | nil => rfl
  | append_singleton ops op ih =>
    simp only [run, pasts, List.foldl_append, List.foldl_cons, List.foldl_nil] at ih ⊢
    generalize ops.foldl (World.step f) ⟨[], []⟩ = w at ih ⊢
    generalize ops.foldl past [] = h at ih ⊢
    have at_i : ∀ i, (w.searches[i]?).map core = (h[i]?).map (outcome f) := fun i => by rw [← List.getElem?_map, ih, List.getElem?_map]
    cases op with
    | new s => simp [World.step, past, ih, core, outcome]
    | attach i timer p =>
      simp only [World.step, past]
      cases hd : deref w.searches i with
      | none => exact ih
      | some s =>
        rw [deref_some] at hd
        rw [← ih]
        exact core_set hd.1 rfl
    | step i d =>
      simp only [World.step, past]
      cases hd : deref w.searches i with
      | none =>
        have hn := deref_none hd
        have : h.modify i (fun p => if p.1 then (true, p.2.1, p.2.2 ++ [d]) else p) = h := by
          apply List.ext_getElem?
          intro j
          rw [List.getElem?_modify]
          by_cases e : i = j
          · subst e
            cases hh : h[i]? with
            | none => simp
            | some p =>
              have h1 := at_i i
              rw [hh] at h1
              cases hs : w.searches[i]? with
              | none => rw [hs] at h1; cases h1
              | some s =>
                rw [hs] at h1
                have h2 := hn s hs
                simp only [Option.map_some, core, outcome, Option.some.injEq, Prod.mk.injEq] at h1
                have : p.1 = false := by rw [← h1.1, h2]
                simp [this]
          · simp [e]
        rw [this]; exact ih
      | some s =>
        rw [deref_some] at hd
        simp only [logAll, List.set_set]
        apply List.ext_getElem?
        intro j
        rw [List.getElem?_map, List.getElem?_map, List.getElem?_set, List.getElem?_modify]
        by_cases e : i = j
        · subst e
          obtain ⟨hlt, he⟩ := List.getElem?_eq_some_iff.1 hd.1
          have h1 := at_i i
          rw [hd.1] at h1
          cases hh : h[i]? with
          | none => rw [hh] at h1; cases h1
          | some p =>
            rw [hh] at h1
            simp only [Option.map_some, core, outcome, Option.some.injEq, Prod.mk.injEq] at h1
            have hp : p.1 = true := by rw [← h1.1]; exact hd.2
            simp [hlt, core, outcome, hp, hd.2, h1.2.1, h1.2.2, List.foldl_append]
        · simp [e, at_i j]
    | finish i =>
      simp only [World.step, past]
      cases hd : deref w.searches i with
      | none => exact ih
      | some s =>
        rw [deref_some] at hd
        rw [← ih]
        exact core_set hd.1 rfl
    | copy i =>
      simp only [World.step, past]
      have h1 := at_i i
      cases hd : deref w.searches i with
      | none =>
        have hn := deref_none hd
        cases hh : h[i]? with
        | none => exact ih
        | some p =>
          rw [hh] at h1
          cases hs : w.searches[i]? with
          | none => rw [hs] at h1; cases h1
          | some s =>
            rw [hs] at h1
            have h2 := hn s hs
            simp only [Option.map_some, core, outcome, Option.some.injEq, Prod.mk.injEq] at h1
            obtain ⟨a, b⟩ := p
            have : a = false := by rw [← h2]; exact h1.1.symm
            subst this
            exact ih
      | some s =>
        rw [deref_some] at hd
        rw [hd.1] at h1
        cases hh : h[i]? with
        | none => rw [hh] at h1; cases h1
        | some p =>
          rw [hh] at h1
          obtain ⟨a, b⟩ := p
          have : a = true := by
            simp only [Option.map_some, core, outcome, Option.some.injEq, Prod.mk.injEq] at h1
            rw [← hd.2]; exact h1.1.symm
          subst this
          simp only [Option.map_some, Option.some.injEq] at h1
          simp [ih, h1]
    | drop i =>
      simp only [World.step, past]
      apply List.ext_getElem?
      intro j
      have h1 := at_i j
      rw [List.getElem?_map, List.getElem?_map, List.getElem?_modify, List.getElem?_modify]
      by_cases e : i = j
      · subst e
        cases hs : w.searches[i]? with
        | none => rw [hs] at h1; cases hh : h[i]? with
          | none => rfl
          | some p => rw [hh] at h1; cases h1
        | some s => rw [hs] at h1; cases hh : h[i]? with
          | none => rw [hh] at h1; cases h1
          | some p =>
            rw [hh] at h1
            simp only [Option.map_some, core, outcome, Option.some.injEq, Prod.mk.injEq] at h1
            simp [core, outcome, h1.2.1, h1.2.2]
      · simpa [e] using h1

/-- A report is of the search which made it, as it is in `w`. -/
def Own (w : World σ) (r : Rec σ) : Prop := ∃ s, w.searches[r.who]? = some s ∧ r.gen = s.gen ∧ r.state = s.state

/-- A report is of the search `t`, as it is in `w`. -/
def Of (w : World σ) (t : Nat) (r : Rec σ) : Prop := ∃ s, w.searches[t]? = some s ∧ s.alive = true ∧ r.gen = s.gen ∧ r.state = s.state

theorem save_of (ss : List (Search σ)) (i t : Nat) (l : Log) (r : Rec σ) (h : r ∈ (save ss i t l).2) :
    r.who = i ∧ r.pickle = true ∧ ∃ s, ss[t]? = some s ∧ s.alive = true ∧ r.gen = s.gen ∧ r.state = s.state := by
  unfold save at h
  cases hd : deref ss t with
  | none => rw [hd] at h; cases h
  | some s =>
    rw [hd] at h
    simp only [List.mem_singleton] at h
    subst h
    rw [deref_some] at hd
    exact ⟨rfl, rfl, s, hd.1, hd.2, rfl, rfl⟩

theorem callLog_of (ss : List (Search σ)) (i : Nat) (l : Log) (r : Rec σ) (h : r ∈ (callLog ss i l).2) :
    r.who = i ∧ ((r.pickle = false ∧ l.pickling = none ∧ ∃ s, ss[i]? = some s ∧ r.gen = s.gen ∧ r.state = s.state) ∨
      (r.pickle = true ∧ ∃ t s, l.pickling = some t ∧ ss[t]? = some s ∧ s.alive = true ∧ r.gen = s.gen ∧ r.state = s.state)) := by
  unfold callLog at h
  dsimp only at h
  split at h
  · split at h
    · rename_i t ht
      obtain ⟨h1, h2, s, h3⟩ := save_of _ _ _ _ _ h
      exact ⟨h1, .inr ⟨h2, t, s, ht, h3⟩⟩
    · rename_i hp
      split at h
      · rename_i s hs
        simp only [List.mem_singleton] at h
        subst h
        exact ⟨rfl, .inl ⟨rfl, hp, s, hs, rfl, rfl⟩⟩
      · cases h
  · cases h

theorem finalLog_of (ss : List (Search σ)) (i : Nat) (l : Log) (r : Rec σ) (h : r ∈ (finalLog ss i l).2) :
    r.who = i ∧ r.pickle = true ∧ ∃ t s, l.pickling = some t ∧ ss[t]? = some s ∧ s.alive = true ∧ r.gen = s.gen ∧ r.state = s.state := by
  unfold finalLog at h
  split at h
  · cases h
  · rename_i t ht
    split at h
    · cases h
    · split at h
      · obtain ⟨h1, h2, s, h3⟩ := save_of _ _ _ _ _ h
        exact ⟨h1, h2, t, s, ht, h3⟩
      · cases h

theorem callLog_keeps (ss : List (Search σ)) (i : Nat) (l : Log) : (callLog ss i l).1.pickling = l.pickling := by
  unfold callLog
  dsimp only
  split
  · split
    · unfold save; split <;> rfl
    · split <;> rfl
  · rfl

theorem finalLog_keeps (ss : List (Search σ)) (i : Nat) (l : Log) : (finalLog ss i l).1.pickling = l.pickling := by
  unfold finalLog
  split
  · rfl
  · split
    · rfl
    · split
      · unfold save; split <;> rfl
      · rfl

/-- To whom the pickling loggers of search `i` belong. -/
def owner (r : Nat → Nat) (ss : List (Search σ)) : Prop := ∀ i s, ss[i]? = some s → ∀ l ∈ s.logs, ∀ t, l.pickling = some t → t = r i

theorem owner_set {r : Nat → Nat} {ss : List (Search σ)} (h : owner r ss) (i : Nat) (s : Search σ) (hs : ∀ l ∈ s.logs, ∀ t, l.pickling = some t → t = r i) : owner r (ss.set i s) := by
  intro j u hu
  rw [List.getElem?_set] at hu
  split at hu
  · rename_i e; subst e
    split at hu
    · simp only [Option.some.injEq] at hu; subst hu; exact hs
    · cases hu
  · exact h j u hu

theorem owner_append {r : Nat → Nat} {ss : List (Search σ)} (h : owner r ss) (s : Search σ) (hs : ∀ l ∈ s.logs, ∀ t, l.pickling = some t → t = r ss.length) : owner r (ss ++ [s]) := by
  intro j u hu
  rw [List.getElem?_append] at hu
  split at hu
  · exact h j u hu
  · rename_i hlt
    have : j = ss.length := by
      by_contra hne
      rw [List.getElem?_eq_none (by simp; omega)] at hu
      cases hu
    subst this
    simp at hu
    subst hu
    exact hs

theorem owner_step (f : σ → D → σ) (w : World σ) (op : Op σ D) (hop : ∀ i, op ≠ .copy i) (h : owner id w.searches) : owner id (w.step f op).searches := by
  cases op with
  | new s => exact owner_append h _ (by simp)
  | attach i timer p =>
    simp only [World.step]
    cases hd : deref w.searches i with
    | none => exact h
    | some s =>
      rw [deref_some] at hd
      refine owner_set h i _ ?_
      intro l hl t ht
      simp only [List.mem_append, List.mem_singleton] at hl
      rcases hl with hl | rfl
      · exact h i s hd.1 l hl t ht
      · cases p with
        | false => simp at ht
        | true => simp at ht; exact ht.symm
  | step i d =>
    simp only [World.step]
    cases hd : deref w.searches i with
    | none => exact h
    | some s =>
      rw [deref_some] at hd
      simp only [logAll, List.set_set]
      refine owner_set h i _ ?_
      intro l hl t ht
      simp only [List.mem_map] at hl
      obtain ⟨l', h1, rfl⟩ := hl
      rw [callLog_keeps] at ht
      exact h i s hd.1 l' h1 t ht
  | finish i =>
    simp only [World.step]
    cases hd : deref w.searches i with
    | none => exact h
    | some s =>
      rw [deref_some] at hd
      refine owner_set h i _ ?_
      intro l hl t ht
      simp only [List.mem_map] at hl
      obtain ⟨l', h1, rfl⟩ := hl
      rw [finalLog_keeps] at ht
      exact h i s hd.1 l' h1 t ht
  | copy i => exact absurd rfl (hop i)
  | drop i =>
    intro j u hu
    simp only [World.step, List.getElem?_modify] at hu
    cases hs : w.searches[j]? with
    | none => rw [hs] at hu; cases hu
    | some s =>
      rw [hs] at hu
      have e : u.logs = s.logs := by
        by_cases e : i = j
        · simp [e] at hu; rw [← hu]
        · simp [e] at hu; rw [← hu]
      intro l hl t ht
      exact h j s hs l (e ▸ hl) t ht

theorem run_owner (f : σ → D → σ) (ops : List (Op σ D)) (h : noCopies ops) : owner id (run f ops).searches := by
  induction ops using List.reverseRecOn with
  | nil => intro i s hs; simp [run] at hs
  | append_singleton ops op ih =>
    simp only [run, List.foldl_append, List.foldl_cons, List.foldl_nil]
    exact owner_step f _ op (h op (by simp)) (ih fun o ho => h o (by simp [ho]))

theorem run_snoc (f : σ → D → σ) (ops : List (Op σ D)) (op : Op σ D) : run f (ops ++ [op]) = (run f ops).step f op := by simp [run]

/-- What one operation reports, given to whom the pickling loggers belong. -/
theorem reports (f : σ → D → σ) (w : World σ) (op : Op σ D) :
    ∃ recs, (w.step f op).out = w.out ++ recs ∧ ∀ r ∈ recs, (r.pickle = false → Own (w.step f op) r) ∧
      (r.pickle = true → ∃ s l t, w.searches[r.who]? = some s ∧ l ∈ s.logs ∧ l.pickling = some t ∧ Of (w.step f op) t r) := by
  cases op with
  | new s => exact ⟨[], by simp [World.step], by simp⟩
  | attach i timer p =>
    simp only [World.step]
    cases hd : deref w.searches i with
    | none => exact ⟨[], by simp, by simp⟩
    | some s => exact ⟨[], by simp, by simp⟩
  | step i d =>
    simp only [World.step]
    cases hd : deref w.searches i with
    | none => exact ⟨[], by simp, by simp⟩
    | some s =>
      rw [deref_some] at hd
      obtain ⟨hlt, he⟩ := List.getElem?_eq_some_iff.1 hd.1
      refine ⟨_, rfl, ?_⟩
      intro r hr
      simp only [List.mem_flatMap] at hr
      obtain ⟨l, hl, hr⟩ := hr
      obtain ⟨h1, h2⟩ := callLog_of _ _ _ _ hr
      have lift : ∀ (t : Nat) (u : Search σ), (w.searches.set i { s with state := f s.state d, gen := s.gen + 1 })[t]? = some u →
          ∃ u' : Search σ, ((w.searches.set i { s with state := f s.state d, gen := s.gen + 1 }).set i { { s with state := f s.state d, gen := s.gen + 1 } with
            logs := s.logs.map fun l => (callLog (w.searches.set i { s with state := f s.state d, gen := s.gen + 1 }) i l).1 })[t]? = some u' ∧
            u'.gen = u.gen ∧ u'.state = u.state ∧ u'.alive = u.alive := by
        intro t u hu
        by_cases e : i = t
        · subst e
          rw [List.getElem?_set_self (by simpa using hlt)]
          rw [List.getElem?_set_self (by simpa using hlt)] at hu
          cases hu
          exact ⟨_, rfl, rfl, rfl, rfl⟩
        · rw [List.getElem?_set_ne e]
          exact ⟨u, hu, rfl, rfl, rfl⟩
      rcases h2 with ⟨hp, _, u, h3, h4, h5⟩ | ⟨hp, t, u, h3, h4, h5, h6, h7⟩
      · refine ⟨fun _ => ?_, fun h => (by rw [hp] at h; cases h)⟩
        obtain ⟨u', g1, g2, g3, _⟩ := lift i u h3
        exact ⟨u', by rw [h1]; exact g1, by rw [h4, g2], by rw [h5, g3]⟩
      · refine ⟨fun h => (by rw [hp] at h; cases h), fun _ => ?_⟩
        obtain ⟨u', g1, g2, g3, g4⟩ := lift t u h4
        exact ⟨s, l, t, by rw [h1]; exact hd.1, hl, h3, u', g1, by rw [g4, h5], by rw [h6, g2], by rw [h7, g3]⟩
  | finish i =>
    simp only [World.step]
    cases hd : deref w.searches i with
    | none => exact ⟨[], by simp, by simp⟩
    | some s =>
      rw [deref_some] at hd
      obtain ⟨hlt, he⟩ := List.getElem?_eq_some_iff.1 hd.1
      refine ⟨_, rfl, ?_⟩
      intro r hr
      simp only [List.mem_flatMap] at hr
      obtain ⟨l, hl, hr⟩ := hr
      obtain ⟨h1, hp, t, u, h3, h4, h5, h6, h7⟩ := finalLog_of _ _ _ _ hr
      refine ⟨fun h => (by rw [hp] at h; cases h), fun _ => ?_⟩
      refine ⟨s, l, t, by rw [h1]; exact hd.1, hl, h3, ?_⟩
      by_cases e : i = t
      · subst e
        rw [hd.1] at h4
        cases h4
        exact ⟨{ s with logs := s.logs.map fun l => (finalLog w.searches i l).1 }, by simp only [logAll]; rw [List.getElem?_set_self hlt], h5, h6, h7⟩
      · exact ⟨u, by simp only [logAll]; rw [List.getElem?_set_ne e]; exact h4, h5, h6, h7⟩
  | copy i =>
    simp only [World.step]
    cases hd : deref w.searches i with
    | none => exact ⟨[], by simp, by simp⟩
    | some s => exact ⟨[], by simp, by simp⟩
  | drop i => exact ⟨[], by simp [World.step], by simp⟩

/-! ### Theorems -/

/-- C149: whatever searches are made, copied, stepped in any order, logged and given up: the state and the generation of each depend on its initial state and its own draws only (those of the original up to
the time of copying, for a copy). -/
theorem C149_independent (f : σ → D → σ) (ops : List (Op σ D)) (i : Nat) :
    ((run f ops).searches[i]?).map (fun s => (s.alive, s.state, s.gen)) = ((pasts ops)[i]?).map fun p => (p.1, p.2.2.foldl f p.2.1, p.2.2.length) := by
  have h := congrArg (fun l => l[i]?) (cores f ops)
  simp only [List.getElem?_map] at h
  exact h

/-- C149: loggers other than `PicklingLogger` report the search which called them, as it is at that time, also if it is a copy. -/
theorem C149_status_loggers (f : σ → D → σ) (ops : List (Op σ D)) (op : Op σ D) :
    ∃ recs, (run f (ops ++ [op])).out = (run f ops).out ++ recs ∧
      ∀ r ∈ recs, r.pickle = false → ∃ s, (run f (ops ++ [op])).searches[r.who]? = some s ∧ r.gen = s.gen ∧ r.state = s.state := by
  rw [run_snoc]
  obtain ⟨recs, h1, h2⟩ := reports f (run f ops) op
  exact ⟨recs, h1, fun r hr => (h2 r hr).1⟩

/-- C149, partial: without copies, the files of a `PicklingLogger` hold the search for which it was made, as it is at that time. -/
theorem C149_pickling_loggers_partial (f : σ → D → σ) (ops : List (Op σ D)) (op : Op σ D) (hc : noCopies ops) :
    ∃ recs, (run f (ops ++ [op])).out = (run f ops).out ++ recs ∧
      ∀ r ∈ recs, ∃ s, (run f (ops ++ [op])).searches[r.who]? = some s ∧ r.gen = s.gen ∧ r.state = s.state := by
  rw [run_snoc]
  obtain ⟨recs, h1, h2⟩ := reports f (run f ops) op
  refine ⟨recs, h1, fun r hr => ?_⟩
  cases hp : r.pickle with
  | false => exact (h2 r hr).1 hp
  | true =>
    obtain ⟨s, l, t, g1, g2, g3, u, g4, _, g5, g6⟩ := (h2 r hr).2 hp
    have : t = r.who := run_owner f ops hc r.who s g1 l g2 t g3
    subst this
    exact ⟨u, g4, g5, g6⟩

/-- C149: a search can be pickled exactly if it has no `PicklingLogger`; then it is unchanged. -/
theorem C149_pickled (s : Search σ) : (pickle s = .ok s ↔ ∀ l ∈ s.logs, l.pickling = none) ∧ (pickle s = .error .typeError ↔ ∃ l ∈ s.logs, ∃ t, l.pickling = some t) := by
  unfold pickle
  by_cases h : (s.logs.any fun l => l.pickling.isSome) = true
  · rw [if_pos h]
    have h' := h
    simp only [List.any_eq_true, Option.isSome_iff_exists] at h'
    refine ⟨⟨fun e => (by cases e), fun e => ?_⟩, ⟨fun _ => h', fun _ => rfl⟩⟩
    obtain ⟨l, h1, t, h2⟩ := h'
    rw [e l h1] at h2; cases h2
  · rw [if_neg h]
    simp only [List.any_eq_true, Option.isSome_iff_exists, not_exists, not_and] at h
    refine ⟨⟨fun _ l hl => ?_, fun _ => rfl⟩, ⟨fun e => (by cases e), fun ⟨l, h1, t, h2⟩ => absurd h2 (h l h1 t)⟩⟩
    cases hp : l.pickling with
    | none => rfl
    | some t => exact absurd hp (h l hl t)

/-! ### What does not hold -/

/-- C149 fails for the `PicklingLogger` of a copy: it saves the original. However many steps `ds` the copy makes, every file written meanwhile is one of generation 1 of the original. -/
theorem C149_violated_copy (f : σ → D → σ) (s0 : σ) (a : D) (ds : List D) :
    let before : List (Op σ D) := [.new s0, .attach 0 ⟨1, false, 0⟩ true, .step 0 a, .copy 0]
    (run f (before ++ ds.map (.step 1))).out = List.replicate 1 ⟨0, true, 1, f s0 a⟩ ++ List.replicate ds.length ⟨1, true, 1, f s0 a⟩ ∧
    ∃ s, (run f (before ++ ds.map (.step 1))).searches[1]? = some s ∧ s.gen = 1 + ds.length ∧ s.state = ds.foldl f (f s0 a) := by
  intro before
  have key : ∃ lg lg' : Log, (∃ c, lg'.timer = ⟨1, false, c⟩) ∧ lg'.pickling = some 0 ∧
      run f (before ++ ds.map (.step 1)) = ⟨[⟨f s0 a, 1, [lg], true⟩, ⟨ds.foldl f (f s0 a), 1 + ds.length, [lg'], true⟩],
        List.replicate 1 ⟨0, true, 1, f s0 a⟩ ++ List.replicate ds.length ⟨1, true, 1, f s0 a⟩⟩ := by
    induction ds using List.reverseRecOn with
    | nil => exact ⟨_, _, ⟨_, rfl⟩, rfl, rfl⟩
    | append_singleton ds d ih =>
      obtain ⟨lg, ⟨⟨i, af, k⟩, pk, last⟩, ⟨c, hc⟩, hp, h⟩ := ih
      have hc' : (⟨i, af, k⟩ : Logger.Logger) = ⟨1, false, c⟩ := hc
      have hp' : pk = some 0 := hp
      simp only [Logger.Logger.mk.injEq] at hc'
      obtain ⟨rfl, rfl, rfl⟩ := hc'
      subst hp'
      have : before ++ (ds ++ [d]).map (Op.step 1) = (before ++ ds.map (Op.step 1)) ++ [.step 1 d] := by simp
      rw [this, run_snoc, h]
      refine ⟨lg, ⟨⟨1, false, k + 1⟩, some 0, some 1⟩, ⟨k + 1, rfl⟩, rfl, ?_⟩
      simp [World.step, deref, logAll, callLog, save, Logger.call, List.foldl_append]
      exact ⟨by omega, (List.replicate_succ').symm⟩
  obtain ⟨lg, lg', _, _, h⟩ := key
  rw [h]
  exact ⟨rfl, _, rfl, rfl, rfl⟩

/-- C149 fails also if the original is given up: then the logger of the copy saves nothing, at no time. -/
theorem C149_violated_dropped (f : σ → D → σ) (s0 : σ) (a : D) (ds : List D) :
    let before : List (Op σ D) := [.new s0, .attach 0 ⟨1, false, 0⟩ true, .step 0 a, .copy 0, .drop 0]
    (run f (before ++ ds.map (.step 1) ++ [.finish 1])).out = [⟨0, true, 1, f s0 a⟩] := by
  intro before
  have key : ∃ lg lg' : Log, (∃ c, lg'.timer = ⟨1, false, c⟩) ∧ lg'.pickling = some 0 ∧
      run f (before ++ ds.map (.step 1)) = ⟨[⟨f s0 a, 1, [lg], false⟩, ⟨ds.foldl f (f s0 a), 1 + ds.length, [lg'], true⟩], [⟨0, true, 1, f s0 a⟩]⟩ := by
    induction ds using List.reverseRecOn with
    | nil => exact ⟨_, _, ⟨_, rfl⟩, rfl, rfl⟩
    | append_singleton ds d ih =>
      obtain ⟨lg, ⟨⟨i, af, k⟩, pk, last⟩, ⟨c, hc⟩, hp, h⟩ := ih
      have hc' : (⟨i, af, k⟩ : Logger.Logger) = ⟨1, false, c⟩ := hc
      have hp' : pk = some 0 := hp
      simp only [Logger.Logger.mk.injEq] at hc'
      obtain ⟨rfl, rfl, rfl⟩ := hc'
      subst hp'
      have : before ++ (ds ++ [d]).map (Op.step 1) = (before ++ ds.map (Op.step 1)) ++ [.step 1 d] := by simp
      rw [this, run_snoc, h]
      refine ⟨lg, ⟨⟨1, false, k + 1⟩, some 0, last⟩, ⟨k + 1, rfl⟩, rfl, ?_⟩
      simp [World.step, deref, logAll, callLog, save, Logger.call, List.foldl_append]
      omega
  obtain ⟨lg, ⟨tm, pk, last⟩, _, hp, h⟩ := key
  cases hp
  rw [run_snoc, h]
  simp [World.step, deref, logAll, finalLog]

/-! ### The hypotheses are met -/

example : noCopies ([.new 0, .attach 0 ⟨2, false, 0⟩ true, .attach 0 ⟨1, false, 0⟩ false, .step 0 5, .step 0 6, .finish 0] : List (Op Nat Nat)) := by
  intro op hop i
  simp only [List.mem_cons, List.not_mem_nil, or_false] at hop
  rcases hop with rfl | rfl | rfl | rfl | rfl | rfl <;> simp

example : ((run (· + ·) ([.new 0, .attach 0 ⟨2, false, 0⟩ true, .attach 0 ⟨1, false, 0⟩ false, .step 0 5, .step 0 6, .step 0 7, .finish 0] : List (Op Nat Nat))).out.map
    fun r => (r.pickle, r.gen, r.state)) = [(false, 1, 5), (true, 2, 11), (false, 2, 11), (false, 3, 18), (true, 3, 18)] := by decide +kernel

example : (pasts ([.new 0, .step 0 5, .copy 0, .step 1 6, .step 0 7, .drop 0, .step 0 8] : List (Op Nat Nat))) = [(false, 0, [5, 7]), (true, 0, [5, 6])] := rfl

end EvoTorch.SearchCopies
