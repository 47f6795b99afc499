import Verif.Model.EvalProtocol
import Verif.Props.Hook
import Mathlib.Tactic.Common
import Mathlib.Data.List.Basic
import Mathlib.Data.List.Range
/-!
C120: the protocol of an evaluation.
-/
namespace EvoTorch.EvalProtocol
open EvoTorch EvoTorch.Hook
variable {V D S : Type}

/-! ### Specification -/

/-- The data sent to the actors: each of them gets it once, if there is any. -/
def sendPart : Option ℕ → Down D → List (Ev D)
  | some n, .data d => (List.range n).map (.send · d)
  | _, _ => []

/-- The preparation, in the first evaluation: without actors the problem prepares itself, otherwise every actor gets every shared attribute. -/
def prepPart (first : Bool) (shared : List String) : Option ℕ → List (Ev D)
  | none => if first then [.prepare] else []
  | some n => if first then shared.flatMap fun a => (List.range n).map (.share a ·) else []

/-- The data collected from the actors: each of them is asked once. -/
def askPart : Option ℕ → Down D → List (Ev D)
  | none, _ => []
  | some _, .notImplemented => []
  | some n, _ => (List.range n).map .ask ++ [.use]

/-- What is to happen in an evaluation on the main problem with `n` actors (`none`: without actors), `first` telling whether it is the first one, `down` being the data to send. -/
def trace (n : Option ℕ) (first : Bool) (shared : List String) (down : Down D) : List (Ev D) :=
  [.before] ++ sendPart n down ++ prepPart first shared n ++ [.evaluate] ++ askPart n down ++ [.best, .after]

/-- A problem object of the main process as constructed. -/
def fresh (numActors : ℕ) (attrs : Attrs V) (shared nonserialized : List String) : Prob V D S :=
  { numActors := numActors, attrs := attrs, shared := shared, nonserialized := nonserialized }

/-- The number of actors, or `none` without parallelisation. -/
def count (n : ℕ) : Option ℕ := if n = 0 then none else some n

/-! ### Proofs -/

structure Inv (p : Prob V D S) : Prop where
  main : p.actorIndex = none
  live : ∀ as, p.actors = some as → as.length = p.numActors ∧ 0 < p.numActors

theorem parallelize_spec {p : Prob V D S} (h : Inv p) :
    Inv (parallelize p) ∧ (parallelize p).actors.map List.length = count p.numActors ∧ (parallelize p).numActors = p.numActors ∧ (parallelize p).prepared = p.prepared ∧
    (parallelize p).shared = p.shared ∧ (parallelize p).log = p.log ∧ (parallelize p).status = p.status ∧ (parallelize p).attrs = p.attrs ∧ (parallelize p).nonserialized = p.nonserialized := by
  unfold parallelize
  split
  · rename_i h0
    refine ⟨h, ?_, rfl, rfl, rfl, rfl, rfl, rfl, rfl⟩
    cases ha : p.actors with
    | none => simp [count, h0]
    | some as => have := h.live as ha; omega
  · rename_i h0
    rw [if_neg (by simp [h.main])]
    split
    · rename_i h1
      refine ⟨h, ?_, rfl, rfl, rfl, rfl, rfl, rfl, rfl⟩
      obtain ⟨as, ha⟩ := Option.isSome_iff_exists.1 h1
      simp [count, h0, ha, (h.live as ha).1]
    · refine ⟨⟨h.main, ?_⟩, by simp [count, h0], rfl, rfl, rfl, rfl, rfl, rfl, rfl⟩
      intro as ha
      simp only [Option.some.injEq] at ha
      subst ha
      exact ⟨by simp, by show 0 < p.numActors; omega⟩

/-- The problem after preparation. -/
def preparedProb (q : Prob V D S) (r : Run D S) : Prob V D S :=
  { (if q.prepared then q else { q with actors := q.actors.map fun as => as.map fun at' => q.shared.foldl (fun x a => setAttr x a (lookup q.attrs a)) at' }) with
    prepared := true, log := q.log ++ ([.before] ++ sendPart (count q.numActors) r.down ++ prepPart (!q.prepared) q.shared (count q.numActors)) }

/-- The end of an evaluation. -/
def ending (q : Prob V D S) (r : Run D S) : Outcome (Prob V D S) Unit :=
  match r.evaluateAll with
  | .error e => ⟨emit q [.evaluate], .error e⟩
  | .ok () =>
    match r.bestWorst with
    | .error e => ⟨{ emit q ([.evaluate] ++ askPart (count q.numActors) r.down ++ [.best]) with status := [] }, .error e⟩
    | .ok b =>
      match r.after with
      | .error e => ⟨{ emit q ([.evaluate] ++ askPart (count q.numActors) r.down ++ [.best, .after]) with status := dictUpdate [] b }, .error e⟩
      | .ok a => ⟨{ emit q ([.evaluate] ++ askPart (count q.numActors) r.down ++ [.best, .after]) with status := dictUpdate (dictUpdate [] b) a }, .ok ()⟩

theorem rest_spec {q : Prob V D S} (hm : q.actorIndex = none) (hc : q.actors.map List.length = count q.numActors) (r : Run D S) (must : Bool)
    (hmust : must = !(askPart (count q.numActors) r.down).isEmpty) : evaluateRest q must r = ending q r := by
  unfold evaluateRest ending
  have key : (if must then syncAfter (emit q [.evaluate]) else emit q [.evaluate]) = emit q ([.evaluate] ++ askPart (count q.numActors) r.down) := by
    cases ha : q.actors with
    | none =>
      have hc' : count q.numActors = none := by rw [← hc, ha]; rfl
      rw [hc'] at hmust ⊢
      simp [askPart] at hmust
      simp [hmust, askPart]
    | some as =>
      have hc' : count q.numActors = some as.length := by rw [← hc, ha]; rfl
      rw [hc'] at hmust ⊢
      cases hd : r.down <;> simp [askPart, hd] at hmust <;> simp [hmust, askPart, syncAfter, emit, ha]
  cases r.evaluateAll with
  | error e => rfl
  | ok u =>
    simp only [key]
    cases hbw : r.bestWorst with
    | error e => simp [finish, hm, emit, hbw]
    | ok b => cases haf : r.after <;> simp [finish, hm, emit, hbw, haf]

/-- An evaluation on the main problem, in one expression. -/
theorem evaluate_main {p : Prob V D S} (h : Inv p) (r : Run D S) : evaluate p r =
    if r.arg = .other then ⟨p, .error .typeError⟩
    else match r.before with
      | .error e => ⟨emit (parallelize p) [.before], .error e⟩
      | .ok () =>
        match (if p.prepared = false ∧ p.numActors = 0 then r.prepare else .ok ()) with
        | .error e => ⟨emit (parallelize p) [.before, .prepare], .error e⟩
        | .ok () => ending (preparedProb (parallelize p) r) r := by
  obtain ⟨h1, h2, h3, h4, h5, h6, h7, h8, h9⟩ := parallelize_spec h
  unfold evaluate
  split
  · rfl
  rename_i harg
  rw [← h3] at h2 ⊢
  rw [← h4]
  generalize parallelize p = q at *
  clear h3 h4 h5 h6 h7 h8 h9 h
  simp only [h1.main, Option.isSome_none, Bool.false_eq_true, if_false]
  cases hb : r.before with
  | error e => rfl
  | ok u =>
    simp only
    unfold evaluateMid
    cases ha : q.actors with
    | none =>
      have hc : count q.numActors = none := by rw [← h2, ha]; rfl
      have hn : q.numActors = 0 := by by_contra h0; simp [count, h0] at hc
      have hs : syncBefore (emit q [.before]) r.down = (emit q [.before], false) := by simp [syncBefore, emit, ha]
      rw [hs]
      cases hp : q.prepared with
      | true =>
        simp only [startPreparations, emit, hp, if_true]
        rw [rest_spec (by exact h1.main) (by exact h2) r false (by simp [hc, askPart])]
        simp [preparedProb, hp, hc, sendPart, prepPart]
        done
      | false =>
        simp only [startPreparations, emit, hp, hn, ha]
        cases hpr : r.prepare with
        | error e => simp
        | ok u =>
          simp only [h1.main, shareAttributes, ha]
          simp
          rw [rest_spec (by rfl) (by simp [count]) r false (by simp [count, askPart])]
          simp [preparedProb, hp, hc, sendPart, prepPart, ha]
          congr 1
          have := h1.main
          cases q; simp_all
    | some as =>
      have hc : count q.numActors = some as.length := by rw [← h2, ha]; rfl
      have hn : q.numActors ≠ 0 := by intro h0; simp [count, h0] at hc
      have hs : syncBefore (emit q [.before]) r.down = (emit q ([.before] ++ sendPart (count q.numActors) r.down), !(askPart (count q.numActors) r.down).isEmpty) := by
        rw [hc]
        cases hd : r.down <;> simp [syncBefore, emit, ha, sendPart, askPart]
      rw [hs]
      cases hp : q.prepared with
      | true =>
        simp only [startPreparations, emit, hp, if_true]
        rw [rest_spec (by exact h1.main) (by exact h2) r _ rfl]
        simp [preparedProb, hp, hc, prepPart]
        done
      | false =>
        simp only [startPreparations, emit, hp, ha]
        simp only [Option.isNone_some, Bool.false_or, hn, beq_iff_eq, if_false, Bool.false_eq_true, h1.main, Option.isNone_none, if_true, and_false, shareAttributes, emit]
        rw [rest_spec (by rfl) (by simp [hc]) r _ rfl]
        simp [preparedProb, hp, hc, sendPart, prepPart, ha]
        congr 1
        have := h1.main
        cases q; simp_all

theorem prepared_inv {q : Prob V D S} (h : Inv q) (r : Run D S) : Inv (preparedProb q r) := by
  refine ⟨?_, ?_⟩
  · unfold preparedProb; split <;> exact h.main
  · intro as ha
    have hn : (preparedProb q r).numActors = q.numActors := by unfold preparedProb; split <;> rfl
    rw [hn]
    unfold preparedProb at ha
    split at ha
    · exact h.live as ha
    · simp only [Option.map_eq_some_iff] at ha
      obtain ⟨as', ha', rfl⟩ := ha
      simpa using h.live as' ha'

theorem ending_fields (q : Prob V D S) (r : Run D S) : (ending q r).state.actorIndex = q.actorIndex ∧ (ending q r).state.actors = q.actors ∧ (ending q r).state.numActors = q.numActors ∧
    (ending q r).state.prepared = q.prepared ∧ (ending q r).state.attrs = q.attrs ∧ (ending q r).state.shared = q.shared ∧ (ending q r).state.nonserialized = q.nonserialized := by
  unfold ending
  split
  · exact ⟨rfl, rfl, rfl, rfl, rfl, rfl, rfl⟩
  · split
    · exact ⟨rfl, rfl, rfl, rfl, rfl, rfl, rfl⟩
    · split <;> exact ⟨rfl, rfl, rfl, rfl, rfl, rfl, rfl⟩

theorem evaluate_inv {p : Prob V D S} (h : Inv p) (r : Run D S) : Inv (evaluate p r).state := by
  have h1 := (parallelize_spec h).1
  rw [evaluate_main h]
  split
  · exact h
  split
  · exact ⟨h1.main, h1.live⟩
  split
  · exact ⟨h1.main, h1.live⟩
  · have h2 := prepared_inv h1 r
    obtain ⟨a, b, c, -⟩ := ending_fields (preparedProb (parallelize p) r) r
    exact ⟨a ▸ h2.main, fun as ha => by rw [c]; exact h2.live as (b ▸ ha)⟩

theorem run_append (p : Prob V D S) (o o' : List (Op V D S)) : run p (o ++ o') = run (run p o) o' := by simp [run]

theorem apply_inv {p : Prob V D S} (h : Inv p) (o : Op V D S) : Inv (apply p o).state := by
  cases o with
  | evaluate r => exact evaluate_inv h r
  | set a v => exact ⟨h.main, h.live⟩
  | kill =>
    simp only [apply, killActors, h.main, Option.isSome_none, Bool.false_eq_true, if_false]
    split
    · exact h
    · exact ⟨rfl, fun as ha => by simp at ha⟩

/-- The problems which a user can reach from a new one. -/
theorem run_inv {p : Prob V D S} (h : Inv p) (ops : List (Op V D S)) : Inv (run p ops) := by
  induction ops generalizing p with
  | nil => exact h
  | cons o ops ih => exact ih (apply_inv h o)

theorem fresh_inv (n : ℕ) (attrs : Attrs V) (shared ns : List String) : Inv (fresh n attrs shared ns : Prob V D S) := ⟨rfl, fun as ha => by simp [fresh] at ha⟩

theorem parallelize_fields {p : Prob V D S} (h : Inv p) : (parallelize p).log = p.log ∧ (parallelize p).numActors = p.numActors ∧ (parallelize p).prepared = p.prepared ∧
    (parallelize p).shared = p.shared ∧ (parallelize p).status = p.status := by
  obtain ⟨-, -, h3, h4, h5, h6, h7, -⟩ := parallelize_spec h
  exact ⟨h6, h3, h4, h5, h7⟩

theorem prepared_fields (q : Prob V D S) (r : Run D S) : (preparedProb q r).numActors = q.numActors ∧ (preparedProb q r).prepared = true ∧ (preparedProb q r).status = q.status ∧
    (preparedProb q r).log = q.log ++ ([.before] ++ sendPart (count q.numActors) r.down ++ prepPart (!q.prepared) q.shared (count q.numActors)) := by
  unfold preparedProb
  split <;> exact ⟨rfl, rfl, rfl, rfl⟩

/-- **C120 (order).** After any history of evaluations, removals of actors and changes of attributes, a successful evaluation does the following, in this order and nothing else: the functions of
`before_eval_hook` are called; every actor gets the synchronisation data; at the first time the problem is prepared or the shared attributes are sent; the batch is evaluated; every actor is asked for its
synchronisation data, which are then used; the best and worst solutions are updated; the functions of `after_eval_hook` are called. A failing evaluation does a beginning of this. -/
theorem C120_order (n : ℕ) (attrs : Attrs V) (shared ns : List String) (ops : List (Op V D S)) (r : Run D S) (p : Prob V D S) (hp : p = run (fresh n attrs shared ns) ops) :
    ∃ evs, (evaluate p r).state.log = p.log ++ evs ∧ evs <+: trace (count p.numActors) (!p.prepared) p.shared r.down ∧
      ((evaluate p r).result = .ok () → evs = trace (count p.numActors) (!p.prepared) p.shared r.down) := by
  have h : Inv p := hp ▸ run_inv (fresh_inv ..) ops
  obtain ⟨l1, l2, l3, l4, l5⟩ := parallelize_fields h
  rw [evaluate_main h]
  split
  · exact ⟨[], by simp, List.nil_prefix, by simp⟩
  split
  · exact ⟨[.before], by simp [emit, l1], by simp [trace], by simp⟩
  split
  · rename_i e he
    have h0 : p.prepared = false ∧ p.numActors = 0 := by
      by_contra hn
      rw [if_neg hn] at he
      cases he
    refine ⟨[.before, .prepare], by simp [emit, l1], ?_, by simp⟩
    rw [h0.1, h0.2]
    refine ⟨[.evaluate, .best, .after], ?_⟩
    cases r.down <;> rfl
  · obtain ⟨m1, m2, m3, m4⟩ := prepared_fields (parallelize p) r
    rw [l1, l2, l3, l4] at m4
    rw [l2] at m1
    unfold ending
    split
    · refine ⟨_, by simp only [emit, m4, List.append_assoc]; rfl, ?_, by simp⟩
      exact ⟨askPart (count p.numActors) r.down ++ [.best, .after], by simp [trace]⟩
    split
    · refine ⟨_, by simp only [emit, m4, m1, List.append_assoc]; rfl, ?_, by simp⟩
      exact ⟨[.after], by simp [trace]⟩
    split
    · refine ⟨_, by simp only [emit, m4, m1, List.append_assoc]; rfl, ?_, by simp⟩
      exact ⟨[], by simp [trace]⟩
    · refine ⟨_, by simp only [emit, m4, m1, List.append_assoc]; rfl, ?_, fun _ => by simp [trace]⟩
      exact ⟨[], by simp [trace]⟩

/-- **C120 (failures).** If a hook function raises before the evaluation, or the preparation does, nothing is evaluated; in these cases and if the evaluation itself raises, the exception reaches the
caller, the functions of `after_eval_hook` are not called and the status is that of the evaluation before. -/
theorem C120_failure (n : ℕ) (attrs : Attrs V) (shared ns : List String) (ops : List (Op V D S)) (r : Run D S) (p : Prob V D S) (hp : p = run (fresh n attrs shared ns) ops) (e : PyErr) :
    (r.arg = .other → (evaluate p r) = ⟨p, .error .typeError⟩) ∧
    (r.arg ≠ .other → r.before = .error e → (evaluate p r).result = .error e ∧ (evaluate p r).state.log = p.log ++ [.before] ∧ (evaluate p r).state.status = p.status) ∧
    (r.arg ≠ .other → r.before = .ok () → p.prepared = false → p.numActors = 0 → r.prepare = .error e →
      (evaluate p r).result = .error e ∧ (evaluate p r).state.log = p.log ++ [.before, .prepare] ∧ (evaluate p r).state.status = p.status ∧ (evaluate p r).state.prepared = false) ∧
    (r.arg ≠ .other → r.before = .ok () → r.prepare = .ok () → r.evaluateAll = .error e →
      (evaluate p r).result = .error e ∧ (evaluate p r).state.status = p.status ∧ (evaluate p r).state.log.getLast? = some .evaluate) := by
  have h : Inv p := hp ▸ run_inv (fresh_inv ..) ops
  obtain ⟨l1, l2, l3, l4, l5⟩ := parallelize_fields h
  obtain ⟨m1, m2, m3, m4⟩ := prepared_fields (parallelize p) r
  rw [evaluate_main h]
  refine ⟨fun h1 => by simp [h1], fun h1 h2 => ?_, fun h1 h2 h3 h4 h5 => ?_, fun h1 h2 h3 h4 => ?_⟩
  · rw [if_neg h1, h2]; exact ⟨rfl, by simp [emit, l1], by simp [emit, l5]⟩
  · rw [if_neg h1, h2]; simp only [h3, h4, and_self, if_true, h5]; exact ⟨trivial, by simp [emit, l1], by simp [emit, l5], by simp [emit, l3, h3]⟩
  · rw [if_neg h1, h2]; simp only [h3, ite_self, ending, h4]; exact ⟨trivial, by simp [emit, m3, l5], by simp [emit]⟩

/-- **C120 (status).** After a successful evaluation the status consists of the best and worst solutions and of what the functions of `after_eval_hook` returned in this evaluation, the latter taking
precedence: nothing of earlier evaluations is left. -/
theorem C120_status (n : ℕ) (attrs : Attrs V) (shared ns : List String) (ops : List (Op V D S)) (r : Run D S) (p : Prob V D S) (hp : p = run (fresh n attrs shared ns) ops)
    (hok : (evaluate p r).result = .ok ()) :
    ∃ b a, r.bestWorst = .ok b ∧ r.after = .ok a ∧ ∀ k, dictGet (evaluate p r).state.status k = (dictGet a.reverse k).or (dictGet b.reverse k) := by
  have h : Inv p := hp ▸ run_inv (fresh_inv ..) ops
  rw [evaluate_main h] at hok ⊢
  by_cases h1 : r.arg = .other
  · rw [if_pos h1] at hok; cases hok
  rw [if_neg h1] at hok ⊢
  cases h2 : r.before with
  | error e => rw [h2] at hok; cases hok
  | ok u =>
  rw [h2] at hok
  simp only at hok ⊢
  cases h3 : (if p.prepared = false ∧ p.numActors = 0 then r.prepare else .ok ()) with
  | error e => rw [h3] at hok; cases hok
  | ok u =>
  rw [h3] at hok
  simp only [ending] at hok ⊢
  cases h4 : r.evaluateAll with
  | error e => rw [h4] at hok; cases hok
  | ok u =>
  rw [h4] at hok
  simp only at hok ⊢
  cases h5 : r.bestWorst with
  | error e => rw [h5] at hok; cases hok
  | ok b =>
  rw [h5] at hok
  simp only at hok ⊢
  cases h6 : r.after with
  | error e => rw [h6] at hok; cases hok
  | ok a =>
  refine ⟨b, a, rfl, rfl, fun k => ?_⟩
  rw [dictGet_update, dictGet_update]
  simp [dictGet]

/-- **C120 (actors).** An evaluation inside an actor calls no hooks, exchanges no synchronisation data and leaves the status alone. -/
theorem C120_in_actor (p : Prob V D S) (i : ℕ) (h : p.actorIndex = some i) (ha : p.actors = none) (r : Run D S) (harg : r.arg ≠ .other) (hprep : r.prepare = .ok ()) (hev : r.evaluateAll = .ok ()) :
    (evaluate p r).result = .ok () ∧ (evaluate p r).state.status = p.status ∧ (evaluate p r).state.log = p.log ++ (if p.prepared then [] else [.prepare]) ++ [.evaluate] := by
  have hpar : parallelize p = p := by unfold parallelize; simp [h]
  unfold evaluate
  rw [if_neg harg, hpar]
  simp only [h, Option.isSome_some, if_true, evaluateMid, syncBefore, ha]
  cases hp : p.prepared <;> simp [startPreparations, hp, ha, hprep, emit, evaluateRest, hev, finish, h]

/-! ### Preparation -/

/-- Every evaluation comes after a preparation. -/
def Ordered (l : List (Ev D)) : Prop := ∀ i : ℕ, l[i]? = some .evaluate → ∃ j < i, l[j]? = some .prepare

theorem evaluate_log {p : Prob V D S} (h : Inv p) (h0 : p.numActors = 0) (r : Run D S) :
    (evaluate p r).state.numActors = 0 ∧ ∃ evs, (evaluate p r).state.log = p.log ++ evs ∧
    ((evs = [] ∨ evs = [.before]) ∧ (evaluate p r).state.prepared = p.prepared ∨
     (evs = [.before, .prepare] ∧ p.prepared = false ∧ (evaluate p r).state.prepared = false ∧ r.prepare ≠ .ok ()) ∨
     (∃ t, .prepare ∉ t ∧ .evaluate ∉ t ∧ evs = [.before] ++ (if p.prepared then [] else [.prepare]) ++ [.evaluate] ++ t) ∧ (evaluate p r).state.prepared = true) := by
  obtain ⟨l1, l2, l3, l4, l5⟩ := parallelize_fields h
  obtain ⟨m1, m2, m3, m4⟩ := prepared_fields (parallelize p) r
  have hc : count p.numActors = none := by simp [count, h0]
  rw [l1, l2, l3, l4, hc] at m4
  rw [l2] at m1
  rw [evaluate_main h]
  split
  · exact ⟨h0, [], by simp, Or.inl ⟨Or.inl rfl, rfl⟩⟩
  split
  · exact ⟨by simp [emit, l2, h0], [.before], by simp [emit, l1], Or.inl ⟨Or.inr rfl, by simp [emit, l3]⟩⟩
  split
  · rename_i e he
    have h1 : p.prepared = false ∧ p.numActors = 0 := by
      by_contra hn
      rw [if_neg hn] at he
      cases he
    rw [if_pos h1] at he
    exact ⟨by simp [emit, l2, h0], [.before, .prepare], by simp [emit, l1], Or.inr (Or.inl ⟨rfl, h1.1, by simp [emit, l3, h1.1], by simp [he]⟩)⟩
  · obtain ⟨-, -, b, c, -⟩ := ending_fields (preparedProb (parallelize p) r) r
    refine ⟨by rw [b, m1, h0], ?_⟩
    rw [c, m2]
    unfold ending
    have hs : (sendPart none r.down : List (Ev D)) = [] := by cases r.down <;> rfl
    have hk : (askPart none r.down : List (Ev D)) = [] := by cases r.down <;> rfl
    have hpp : (prepPart (!p.prepared) p.shared none : List (Ev D)) = if p.prepared then [] else [.prepare] := by cases p.prepared <;> rfl
    rw [m1, hc, hk]
    rw [hs, hpp] at m4
    split
    · exact ⟨_, by simp only [emit, m4, List.append_assoc]; rfl, Or.inr (Or.inr ⟨⟨[], by simp, by simp, by simp⟩, rfl⟩)⟩
    split
    · exact ⟨_, by simp only [emit, m4, List.append_assoc]; rfl, Or.inr (Or.inr ⟨⟨[.best], by simp, by simp, by simp⟩, rfl⟩)⟩
    split
    · exact ⟨_, by simp only [emit, m4, List.append_assoc]; rfl, Or.inr (Or.inr ⟨⟨[.best, .after], by simp, by simp, by simp⟩, rfl⟩)⟩
    · exact ⟨_, by simp only [emit, m4, List.append_assoc]; rfl, Or.inr (Or.inr ⟨⟨[.best, .after], by simp, by simp, by simp⟩, rfl⟩)⟩

theorem step_ordered {p : Prob V D S} (h : Inv p) (h0 : p.numActors = 0) (hi : Ordered p.log) (hq : p.prepared = true → .prepare ∈ p.log) (hc : p.prepared = false → .evaluate ∉ p.log) (r : Run D S) :
    Ordered (evaluate p r).state.log ∧ ((evaluate p r).state.prepared = true → .prepare ∈ (evaluate p r).state.log) ∧ ((evaluate p r).state.prepared = false → .evaluate ∉ (evaluate p r).state.log) := by
  obtain ⟨-, evs, hl, hcase⟩ := evaluate_log h h0 r
  have key : ∀ t : List (Ev D), .evaluate ∉ t → Ordered (p.log ++ t) := by
    intro t ht i hi'
    by_cases hlt : i < p.log.length
    · rw [List.getElem?_append_left hlt] at hi'
      obtain ⟨j, hj, hj'⟩ := hi i hi'
      exact ⟨j, hj, by rw [List.getElem?_append_left (by omega)]; exact hj'⟩
    · rw [List.getElem?_append_right (by omega)] at hi'
      exact absurd (List.mem_of_getElem? hi') ht
  rw [hl]
  rcases hcase with ⟨he, hp⟩ | ⟨he, hp, hp', -⟩ | ⟨⟨t, ht1, ht2, he⟩, hp⟩
  · have hne : .evaluate ∉ evs := by rcases he with rfl | rfl <;> simp
    refine ⟨key evs hne, fun h1 => ?_, fun h1 => ?_⟩
    · exact List.mem_append_left _ (hq (hp ▸ h1))
    · simp only [List.mem_append, not_or]; exact ⟨hc (hp ▸ h1), hne⟩
  · subst he
    refine ⟨key _ (by simp), fun h1 => (by rw [hp'] at h1; cases h1), fun h1 => ?_⟩
    simp [hc hp]
  · have hmem : ∃ pre, p.log ++ evs = pre ++ .evaluate :: t ∧ .prepare ∈ pre ∧ Ordered pre := by
      cases hpp : p.prepared with
      | true => exact ⟨p.log ++ [.before], by simp [he, hpp], List.mem_append_left _ (hq hpp), key _ (by simp)⟩
      | false => exact ⟨p.log ++ [.before, .prepare], by simp [he, hpp], by simp, key _ (by simp)⟩
    obtain ⟨pre, h1, h2, h3⟩ := hmem
    rw [h1]
    refine ⟨fun i hi' => ?_, fun _ => List.mem_append_left _ h2, fun h4 => by rw [hp] at h4; cases h4⟩
    obtain ⟨j, hj, hj'⟩ := List.mem_iff_getElem.1 h2
    by_cases hlt : i < pre.length
    · rw [List.getElem?_append_left hlt] at hi'
      obtain ⟨k, hk, hk'⟩ := h3 i hi'
      exact ⟨k, hk, by rw [List.getElem?_append_left (by omega)]; exact hk'⟩
    · refine ⟨j, by omega, ?_⟩
      rw [List.getElem?_append_left hj, List.getElem?_eq_getElem hj, hj']

/-- The number of evaluations in which the preparation would raise. -/
def failures : List (Op V D S) → ℕ
  | [] => 0
  | .evaluate r :: ops => (if r.prepare.isOk then 0 else 1) + failures ops
  | _ :: ops => failures ops

/-- **C120 (preparation).** Without actors, in every history of evaluations, some failing: every evaluation of a batch comes after a preparation, and once the preparation has succeeded it is not repeated: it
is done at most once more than it fails. -/
theorem C120_prepare_once (attrs : Attrs V) (shared ns : List String) (ops : List (Op V D S)) [DecidableEq D] :
    Ordered (run (fresh 0 attrs shared ns : Prob V D S) ops).log ∧
    (run (fresh 0 attrs shared ns : Prob V D S) ops).log.count .prepare ≤ 1 + failures ops := by
  have main : ∀ (ops : List (Op V D S)) (p : Prob V D S), Inv p → p.numActors = 0 → Ordered p.log → (p.prepared = true → .prepare ∈ p.log) → (p.prepared = false → .evaluate ∉ p.log) →
      Ordered (run p ops).log ∧ (run p ops).log.count .prepare ≤
        p.log.count .prepare + (if p.prepared then 0 else 1) + failures ops := by
    intro ops
    induction ops with
    | nil => intro p h h0 h1 h2 h3; exact ⟨h1, by simp only [run, List.foldl_nil, failures]; omega⟩
    | cons o ops ih =>
      intro p h h0 h1 h2 h3
      have hr : run p (o :: ops) = run (apply p o).state ops := rfl
      rw [hr]
      cases o with
      | set a v =>
        obtain ⟨a1, a2⟩ := ih (apply p (.set a v)).state (apply_inv h _) h0 h1 h2 h3
        exact ⟨a1, a2⟩
      | kill =>
        have hk : (apply p .kill).state = p := by
          simp only [apply, killActors, h.main, Option.isSome_none, Bool.false_eq_true, if_false]
          split
          · rfl
          · rename_i as ha; have := h.live as ha; omega
        rw [hk]
        obtain ⟨a1, a2⟩ := ih p h h0 h1 h2 h3
        exact ⟨a1, a2⟩
      | evaluate r =>
        obtain ⟨b1, b2, b3⟩ := step_ordered h h0 h1 h2 h3 r
        obtain ⟨c0, evs, c1, c2⟩ := evaluate_log h h0 r
        obtain ⟨a1, a2⟩ := ih (evaluate p r).state (evaluate_inv h r) c0 b1 b2 b3
        refine ⟨a1, le_trans a2 ?_⟩
        rw [c1, List.count_append]
        simp only [failures]
        rcases c2 with ⟨he, hp⟩ | ⟨he, hp, hp', hpe⟩ | ⟨⟨t, ht1, ht2, he⟩, hp⟩
        · have : List.count (Ev.prepare : Ev D) evs = 0 := by rcases he with rfl | rfl <;> simp
          rw [hp, this]
          omega
        · have : r.prepare.isOk = false := by
            cases hx : r.prepare with
            | error e => rfl
            | ok u => exact absurd hx hpe
          rw [he, hp, hp', this]
          simp
          omega
        · rw [hp, he]
          have ht : List.count (Ev.prepare : Ev D) t = 0 := List.count_eq_zero.2 ht1
          cases hpp : p.prepared <;> simp [ht] <;> omega
  have := main ops (fresh 0 attrs shared ns) (fresh_inv ..) rfl (by intro i hi; simp [fresh] at hi) (by simp [fresh]) (by simp [fresh])
  simpa [fresh] using this

/-! ### Shared attributes -/

theorem lookup_setAttr (a : Attrs V) (k k' : String) (v : Option V) : lookup (setAttr a k v) k' = if k = k' then v else lookup a k' := by
  induction a with
  | nil => by_cases h : k = k' <;> simp [setAttr, lookup, h]
  | cons kv a ih =>
    obtain ⟨x, y⟩ := kv
    simp only [setAttr]
    unfold lookup at ih ⊢
    by_cases h : x = k
    · subst h
      by_cases h' : x = k' <;> simp [h']
    · rw [if_neg h]
      by_cases h' : x = k'
      · subst h'; simp [Ne.symm h]
      · simp only [List.find?_cons, h', decide_false]; exact ih

theorem foldl_setAttr (m : Attrs V) (shared : List String) : ∀ (a : Attrs V) (k : String),
    lookup (shared.foldl (fun x s => setAttr x s (lookup m s)) a) k = if k ∈ shared then lookup m k else lookup a k := by
  induction shared with
  | nil => intro a k; simp
  | cons s shared ih =>
    intro a k
    rw [List.foldl_cons, ih, lookup_setAttr]
    by_cases h1 : k ∈ shared
    · simp [h1]
    · by_cases h2 : s = k
      · subst h2; simp
      · simp [h1, h2, Ne.symm h2]

/-- The actors of a prepared problem hold the shared attributes of the main problem. -/
def Holds (p : Prob V D S) : Prop := p.prepared = true ∧ p.actors ≠ none ∧ ∀ as, p.actors = some as → ∀ at' ∈ as, ∀ k ∈ p.shared, lookup at' k = lookup p.attrs k

theorem holds_evaluate {p : Prob V D S} (h : Inv p) (hh : Holds p) (r : Run D S) : Holds (evaluate p r).state := by
  have hpar : parallelize p = p := by
    unfold parallelize
    cases ha : p.actors with
    | none => exact absurd ha hh.2.1
    | some as => simp
  rw [evaluate_main h, hpar]
  split
  · exact hh
  split
  · exact hh
  split
  · exact hh
  · obtain ⟨a1, a2, a3, a4, a5, a6, a7⟩ := ending_fields (preparedProb p r) r
    have hp : (preparedProb p r).actors = p.actors ∧ (preparedProb p r).attrs = p.attrs ∧ (preparedProb p r).shared = p.shared ∧ (preparedProb p r).prepared = true := by
      unfold preparedProb
      rw [if_pos hh.1]
      exact ⟨rfl, rfl, rfl, rfl⟩
    unfold Holds
    rw [a2, a4, a5, a6, hp.1, hp.2.1, hp.2.2.1, hp.2.2.2]
    exact ⟨rfl, hh.2⟩

/-- **C120 (shared attributes).** If attributes are set before the first evaluation only, and actors are not replaced, then from the first successful evaluation on all actors have the values of the shared
attributes of the main problem, also those which are not serialised. -/
theorem C120_shared_partial (n : ℕ) (hn : 0 < n) (attrs : Attrs V) (shared ns : List String) (sets : List (String × V)) (r : Run D S) (later : List (Run D S)) (p q : Prob V D S)
    (hp : p = run (fresh n attrs shared ns) (sets.map fun kv => .set kv.1 kv.2)) (hok : (evaluate p r).result = .ok ()) (hq : q = run (evaluate p r).state (later.map .evaluate)) :
    ∃ as, q.actors = some as ∧ as.length = n ∧ ∀ at' ∈ as, ∀ k ∈ shared, lookup at' k = lookup p.attrs k := by
  have h : Inv p := hp ▸ run_inv (fresh_inv ..) _
  have hf : p.prepared = false ∧ p.numActors = n ∧ p.shared = shared ∧ p.actors = none := by
    have gen : ∀ (sets : List (String × V)) (p : Prob V D S), (run p (sets.map fun kv => .set kv.1 kv.2)).prepared = p.prepared ∧ (run p (sets.map fun kv => .set kv.1 kv.2)).numActors = p.numActors ∧
        (run p (sets.map fun kv => .set kv.1 kv.2)).shared = p.shared ∧ (run p (sets.map fun kv => .set kv.1 kv.2)).actors = p.actors := by
      intro sets
      induction sets with
      | nil => intro p; exact ⟨rfl, rfl, rfl, rfl⟩
      | cons kv sets ih => intro p; exact ih _
    rw [hp]
    exact gen sets _
  obtain ⟨f1, f2, f3, f4⟩ := hf
  have hpar := (parallelize_spec h)
  obtain ⟨g1, g2, g3, g4, g5, g6, g7, g8, g9⟩ := hpar
  have hinv := evaluate_inv h r
  have hholds : Holds (evaluate p r).state ∧ (evaluate p r).state.attrs = p.attrs ∧ (evaluate p r).state.shared = p.shared ∧ (evaluate p r).state.numActors = n := by
    rw [evaluate_main h] at hok ⊢
    split at hok
    · cases hok
    rename_i h1
    rw [if_neg h1]
    revert hok
    split
    · intro hok; cases hok
    · split
      · intro hok; cases hok
      · intro _
        obtain ⟨a1, a2, a3, a4, a5, a6, a7⟩ := ending_fields (preparedProb (parallelize p) r) r
        unfold Holds
        rw [a2, a3, a4, a5, a6]
        unfold preparedProb
        rw [g4, f1]
        refine ⟨⟨rfl, ?_, ?_⟩, g8, g5, by simpa [f2] using g3⟩
        · intro hnone
          simp only [Bool.false_eq_true, if_false, Option.map_eq_none_iff] at hnone
          rw [hnone] at g2
          have : n ≠ 0 := by omega
          simp [count, f2, this] at g2
        · intro as has at' hat k hk
          simp only [Bool.false_eq_true, if_false, Option.map_eq_some_iff] at has
          obtain ⟨as', -, rfl⟩ := has
          obtain ⟨x, -, rfl⟩ := List.mem_map.1 hat
          rw [foldl_setAttr]
          simp only [Bool.false_eq_true, if_false] at hk
          simp [hk]
  have gen : ∀ (later : List (Run D S)) (p : Prob V D S), Inv p → Holds p → Inv (run p (later.map .evaluate)) ∧ Holds (run p (later.map .evaluate)) ∧ (run p (later.map .evaluate)).attrs = p.attrs ∧
      (run p (later.map .evaluate)).shared = p.shared ∧ (run p (later.map .evaluate)).numActors = p.numActors := by
    intro later
    induction later with
    | nil => intro p h1 h2; exact ⟨h1, h2, rfl, rfl, rfl⟩
    | cons r later ih =>
      intro p h1 h2
      obtain ⟨i1, i2, i3, i4, i5⟩ := ih (evaluate p r).state (evaluate_inv h1 r) (holds_evaluate h1 h2 r)
      have hfld : (evaluate p r).state.attrs = p.attrs ∧ (evaluate p r).state.shared = p.shared ∧ (evaluate p r).state.numActors = p.numActors := by
        obtain ⟨-, -, j3, j4, j5, j6, j7, j8, j9⟩ := parallelize_spec h1
        rw [evaluate_main h1]
        split
        · exact ⟨rfl, rfl, rfl⟩
        split
        · exact ⟨j8, j5, j3⟩
        split
        · exact ⟨j8, j5, j3⟩
        · obtain ⟨a1, a2, a3, a4, a5, a6, a7⟩ := ending_fields (preparedProb (parallelize p) r) r
          rw [a3, a5, a6]
          unfold preparedProb
          split <;> exact ⟨j8, j5, j3⟩
      exact ⟨i1, i2, i3.trans hfld.1, i4.trans hfld.2.1, i5.trans hfld.2.2⟩
  obtain ⟨i1, i2, i3, i4, i5⟩ := gen later _ hinv hholds.1
  rw [← hq] at i1 i2 i3 i4 i5
  cases hqa : q.actors with
  | none => exact absurd hqa i2.2.1
  | some as =>
    refine ⟨as, rfl, by rw [(i1.live as hqa).1, i5, hholds.2.2.2], fun at' hat k hk => ?_⟩
    rw [i2.2.2 as hqa at' hat k (by rw [i4, hholds.2.2.1, f3]; exact hk), i3, hholds.2.1]

/-- **C120 (violated: replaced actors).** Attributes are shared when the problem is first prepared only: actors created after `kill_actors()` never get those which are not serialised. -/
theorem C120_violated_replaced (v : V) (r s : Run D S) (hr : r = {}) (hs : s = {}) :
    ∃ as, (run (fresh 1 [("data", some v)] ["data"] ["data"] : Prob V D S) [.evaluate r, .kill, .evaluate s]).actors = some as ∧ ∀ at' ∈ as, lookup at' "data" = none := by
  subst hr hs
  refine ⟨[[("data", none)]], rfl, ?_⟩
  intro at' h; simp at h; subst h; rfl

/-- **C120 (violated: later changes).** A shared attribute changed in the main problem after the first evaluation keeps its old value in the actors. -/
theorem C120_violated_change (v w : V) (r s : Run D S) (hr : r = {}) (hs : s = {}) :
    ∃ as, (run (fresh 1 [("data", some v)] ["data"] [] : Prob V D S) [.evaluate r, .set "data" w, .evaluate s]).actors = some as ∧ ∀ at' ∈ as, lookup at' "data" = some v := by
  subst hr hs
  refine ⟨[[("data", some v)]], rfl, ?_⟩
  intro at' h; simp at h; subst h; rfl

/-! ### Remote access -/

theorem range_get {A Y : Type} (l : List A) (g : A → Y) : ((List.range l.length).filterMap fun i => l[i]?.map g) = l.map g := by
  induction l with
  | nil => rfl
  | cons a l ih =>
    rw [List.length_cons, List.range_succ_eq_map, List.filterMap_cons]
    simp only [List.getElem?_cons_zero, Option.map_some, List.filterMap_map, List.map_cons]
    congr 1

/-- **C120 (remote methods).** Calling a method of all remote problems calls it once in each, in whichever order the calls finish, and returns the results in the order of the actors. -/
theorem C120_remote_method {A X : Type} (method : A → A × X) (actors : List A) (order : List ℕ) (h : order.Perm (List.range actors.length)) :
    remoteCall method actors order = (actors.map fun a => (method a).1, actors.map fun a => (method a).2) := by
  have key : ∀ i, (hi : i < actors.length) → ((order.filterMap fun i => actors[i]?.map fun a => (i, method a)).find? fun f => decide (f.1 = i)).map (·.2) = some (method actors[i]) := by
    intro i hi
    have hm : i ∈ order := h.mem_iff.2 (List.mem_range.2 hi)
    clear h
    induction order with
    | nil => simp at hm
    | cons j order ih =>
      by_cases hj : j = i
      · subst hj
        simp [List.filterMap_cons, List.getElem?_eq_getElem hi]
      · have hm' : i ∈ order := by simpa [Ne.symm hj] using hm
        rw [List.filterMap_cons]
        cases hx : actors[j]? with
        | none => simpa using ih hm'
        | some a => simp only [Option.map_some, List.find?_cons, hj, decide_false]; exact ih hm'
  have gen : ∀ {Y : Type} (f : A × X → Y), (List.range actors.length).filterMap (fun i =>
      (((order.filterMap fun i => actors[i]?.map fun a => (i, method a)).find? fun f => decide (f.1 = i)).map (·.2)).map f) = actors.map fun a => f (method a) := by
    intro Y f
    have h1 : (List.range actors.length).filterMap (fun i =>
        (((order.filterMap fun i => actors[i]?.map fun a => (i, method a)).find? fun f => decide (f.1 = i)).map (·.2)).map f) =
        (List.range actors.length).filterMap fun i => actors[i]?.map fun a => f (method a) := by
      apply List.filterMap_congr
      intro i hi
      rw [List.mem_range] at hi
      rw [key i hi, List.getElem?_eq_getElem hi]
      rfl
    rw [h1]
    exact range_get actors (fun a => f (method a))
  simp only [remoteCall]
  rw [gen Prod.fst, gen Prod.snd]

theorem fieldOf_put (fs : List (String × Obj V)) (k k' : String) (x : Obj V) : fieldOf (putField fs k x) k' = if k = k' then some x else fieldOf fs k' := by
  induction fs with
  | nil => by_cases h : k = k' <;> simp [putField, fieldOf, h]
  | cons kv a ih =>
    obtain ⟨a', y⟩ := kv
    simp only [putField]
    unfold fieldOf at ih ⊢
    by_cases h : a' = k
    · subst h
      by_cases h' : a' = k' <;> simp [h']
    · rw [if_neg h]
      by_cases h' : a' = k'
      · subst h'; simp [Ne.symm h]
      · simp only [List.find?_cons, h', decide_false]; exact ih

/-- **C120 (remote attributes).** Setting a possibly nested attribute of a remote problem makes it readable there, and changes no attribute elsewhere. -/
theorem C120_remote_attribute (path : List String) (hne : path ≠ []) : ∀ (o o' x : Obj V), setPath o path x = .ok o' →
    getPath o' path = .ok x ∧ ∀ other, ¬ path <+: other → ¬ other <+: path → getPath o' other = getPath o other := by
  induction path with
  | nil => exact absurd rfl hne
  | cons k ks ih =>
    intro o o' x h
    cases o with
    | val v => simp [setPath] at h
    | obj fs =>
      cases ks with
      | nil =>
        simp only [setPath, Except.ok.injEq] at h
        subst h
        refine ⟨by simp [getPath, fieldOf_put], fun other h1 h2 => ?_⟩
        cases other with
        | nil => exact absurd List.nil_prefix h2
        | cons k' ks' =>
          have hk : k ≠ k' := by rintro rfl; exact h1 (by simp)
          simp [getPath, fieldOf_put, hk]
      | cons k1 ks1 =>
        simp only [setPath] at h
        cases hf : fieldOf fs k with
        | none => rw [hf] at h; cases h
        | some oc =>
          rw [hf] at h
          simp only at h
          cases hs : setPath oc (k1 :: ks1) x with
          | error e => rw [hs] at h; cases h
          | ok oc' =>
            rw [hs] at h
            simp only [Except.ok.injEq] at h
            subst h
            obtain ⟨i1, i2⟩ := ih (by simp) oc oc' x hs
            refine ⟨by simpa [getPath, fieldOf_put] using i1, fun other h1 h2 => ?_⟩
            cases other with
            | nil => exact absurd List.nil_prefix h2
            | cons k' ks' =>
              by_cases hk : k = k'
              · subst hk
                simp only [getPath, fieldOf_put, hf, if_true]
                exact i2 ks' (fun h => h1 (by simpa using h)) (fun h => h2 (by simpa using h))
              · simp [getPath, fieldOf_put, hk]

/-! ### Examples -/

example : ((run (fresh 2 [("a", some 1)] ["a"] ["a"] : Prob ℕ ℕ ℕ) [.evaluate { down := .data 7, after := .ok [("x", 3)] }]).log) =
    [.before, .send 0 7, .send 1 7, .share "a" 0, .share "a" 1, .evaluate, .ask 0, .ask 1, .use, .best, .after] := by decide
example : (evaluate (run (fresh 0 [] [] [] : Prob ℕ ℕ ℕ) [.evaluate { after := .ok [("x", 3)] }]) { bestWorst := .ok [("best", 1)], after := .ok [("y", 4)] }).state.status = [("best", 1), ("y", 4)] := by
  decide
example : (run (fresh 0 [] [] [] : Prob ℕ ℕ ℕ) [.evaluate { prepare := .error .runtimeError }, .evaluate {}, .evaluate {}]).log =
    [.before, .prepare, .before, .prepare, .evaluate, .best, .after, .before, .evaluate, .best, .after] := by decide

end EvoTorch.EvalProtocol
