import Verif.Model.StatusView
import Verif.Props.Hook
import Verif.Props.Status
import Mathlib.Data.List.Induction
import Mathlib.Tactic.Common
/-!
C127: the status of a search algorithm is a read-only mapping view; the step counter and the time of the first step.
-/
namespace EvoTorch.StatusView
open EvoTorch.Hook (Dict dictSet dictUpdate dictGet dictGet_set dictGet_update KeysNodup)
open EvoTorch.Status (Reporter Getter get Op apply runOps readDeps get_succ)
variable {W K A V : Type} [DecidableEq K]

/-! ### Invariants of reporters -/

/-- The keys are distinct, and only registered keys have values. -/
def Sound (r : Reporter W K V) : Prop := KeysNodup r.getters ∧ ∀ k, (dictGet r.computed k).isSome → (dictGet r.getters k).isSome

theorem dictGet_isSome {V : Type} (d : Dict K V) (k : K) : (dictGet d k).isSome ↔ k ∈ d.map (·.1) := by
  simp only [dictGet, Option.isSome_map, List.find?_isSome, decide_eq_true_eq, List.mem_map]

theorem keys_set {V : Type} (d : Dict K V) (k : K) (v : V) :
    (dictSet d k v).map (·.1) = if k ∈ d.map (·.1) then d.map (·.1) else d.map (·.1) ++ [k] := by
  induction d with
  | nil => simp [dictSet]
  | cons kv d ih =>
    obtain ⟨k', v'⟩ := kv
    simp only [dictSet]
    by_cases h : k' = k
    · simp [h]
    · rw [if_neg h]
      simp only [List.map_cons, ih, List.mem_cons, Ne.symm h, false_or]
      split <;> simp

theorem nodup_set {V : Type} (d : Dict K V) (k : K) (v : V) (h : KeysNodup d) : KeysNodup (dictSet d k v) := by
  unfold KeysNodup at *
  rw [keys_set]
  split
  · exact h
  · rename_i hk
    rw [List.nodup_append]
    refine ⟨h, by simp, ?_⟩
    intro a ha b hb hab
    simp only [List.mem_singleton] at hb
    subst hb; subst hab; exact hk ha

theorem nodup_update {V : Type} (e : Dict K V) : ∀ d : Dict K V, KeysNodup d → KeysNodup (dictUpdate d e) := by
  induction e with
  | nil => intro d h; exact h
  | cons kv e ih => intro d h; exact ih _ (nodup_set d kv.1 kv.2 h)

/-- What a read leaves alone, and what it can add. -/
structure Reads (r r' : Reporter W K V) : Prop where
  world : r'.world = r.world
  getters : r'.getters = r.getters
  sound : Sound r → Sound r'

theorem Reads.refl (r : Reporter W K V) : Reads r r := ⟨rfl, rfl, fun h => h⟩

theorem Reads.trans {r r' r'' : Reporter W K V} (h : Reads r r') (h' : Reads r' r'') : Reads r r'' :=
  ⟨h'.world.trans h.world, h'.getters.trans h.getters, fun hs => h'.sound (h.sound hs)⟩

theorem readDeps_reads {fuel : ℕ} (hget : ∀ (r : Reporter W K V) k, Reads r (get fuel r k).1) (ds : List K) :
    ∀ acc : Reporter W K V × Except PyErr (List V), Reads acc.1 (ds.foldl (readDeps fuel) acc).1 := by
  induction ds with
  | nil => intro acc; exact Reads.refl _
  | cons d ds ih =>
    intro acc
    rw [List.foldl_cons]
    refine Reads.trans ?_ (ih _)
    unfold readDeps
    split
    · exact Reads.refl _
    · have := hget acc.1 d
      split <;> (rename_i heq; rw [heq] at this; exact this)

theorem get_reads (fuel : ℕ) : ∀ (r : Reporter W K V) (k : K), Reads r (get fuel r k).1 := by
  induction fuel with
  | zero => intro r k; exact Reads.refl r
  | succ fuel ih =>
    intro r k
    rw [get_succ]
    split
    · exact Reads.refl r
    · rename_i hnone
      split
      · exact Reads.refl r
      · rename_i g hg
        have hd := readDeps_reads ih g.deps (r, .ok [])
        split
        · exact hd
        · refine Reads.trans hd ⟨rfl, rfl, ?_⟩
          intro hs
          refine ⟨hs.1, ?_⟩
          intro x hx
          simp only [dictGet_set] at hx
          split at hx
          · rename_i hk; subst hk
            rw [hd.getters, hg]; rfl
          · exact hs.2 x hx

/-- The keys are those before, in the same order, possibly followed by new ones. -/
theorem update_keys {V : Type} (e : Dict K V) : ∀ d : Dict K V, d.map (·.1) <+: (dictUpdate d e).map (·.1) := by
  induction e with
  | nil => intro d; exact List.prefix_refl _
  | cons kv e ih =>
    intro d
    refine List.IsPrefix.trans ?_ (ih (dictSet d kv.1 kv.2))
    rw [keys_set]
    split
    · exact List.prefix_refl _
    · exact List.prefix_append _ _

theorem dictGet_update_isSome {V : Type} (e : Dict K V) (d : Dict K V) (k : K) (h : (dictGet d k).isSome) : (dictGet (dictUpdate d e) k).isSome := by
  rw [dictGet_isSome] at *
  exact (update_keys e d).subset h

theorem status_update (missing : V) (e : Dict K V) : ∀ r : Reporter W K V, Sound r →
    Sound (Status.update missing e r) ∧ r.getters.map (·.1) <+: (Status.update missing e r).getters.map (·.1) := by
  induction e with
  | nil => intro r h; exact ⟨h, List.prefix_refl _⟩
  | cons kv e ih =>
    intro r h
    have h1 : Sound ({ r with
        getters := if (dictGet r.getters kv.1).isNone then dictSet r.getters kv.1 ⟨[], fun _ _ => missing⟩ else r.getters
        computed := dictSet r.computed kv.1 kv.2 } : Reporter W K V) := by
      constructor
      · show KeysNodup (if _ then _ else _)
        split
        · exact nodup_set _ _ _ h.1
        · exact h.1
      · intro k hk
        simp only [dictGet_set] at hk
        show (dictGet (if _ then _ else _) k).isSome
        by_cases hkv : kv.1 = k
        · subst hkv
          split
          · simp [dictGet_set]
          · rename_i hn
            simpa [Option.isSome_iff_ne_none] using hn
        · rw [if_neg hkv] at hk
          have := h.2 k hk
          split
          · simp [dictGet_set, hkv, this]
          · exact this
    obtain ⟨h2, h3⟩ := ih _ h1
    refine ⟨h2, List.IsPrefix.trans ?_ h3⟩
    show _ <+: (if _ then _ else _ : Dict K (Getter W K V)).map (·.1)
    split
    · rw [keys_set]
      split
      · exact List.prefix_refl _
      · exact List.prefix_append _ _
    · exact List.prefix_refl _

theorem apply_sound (fuel : ℕ) (missing : V) (r : Reporter W K V) (op : Op W K V) (h : Sound r) :
    Sound (apply fuel missing r op).1 ∧ r.getters.map (·.1) <+: (apply fuel missing r op).1.getters.map (·.1) := by
  cases op with
  | read k =>
    have := get_reads fuel r k
    exact ⟨this.sound h, by show _ <+: ((get fuel r k).1.getters.map (·.1)); rw [this.getters]; exact List.prefix_refl _⟩
  | change f => exact ⟨h, List.prefix_refl _⟩
  | clear => exact ⟨⟨h.1, by intro k hk; simp [apply, Status.clear, dictGet] at hk⟩, List.prefix_refl _⟩
  | update e => exact status_update missing e r h
  | addGetters gs =>
    exact ⟨⟨nodup_update gs _ h.1, fun k hk => dictGet_update_isSome gs _ k (h.2 k hk)⟩, update_keys gs _⟩

/-- **C127.** The status is a mapping, whatever happened to the reporter before: iteration gives distinct keys, those for which `in` is true, and their number is the
length. Keys are never removed, nor do they change their order. -/
theorem C127_mapping (fuel : ℕ) (missing : Item A) (getters : Dict K (Getter W K (Item A))) (hg : KeysNodup getters) (w : W) (ops more : List (Op W K (Item A))) :
    ∀ r r', r = (runOps fuel missing ⟨w, getters, [], []⟩ ops).1 → r' = (runOps fuel missing r more).1 →
      Sound r ∧ (iter r).Nodup ∧ (∀ k, contains r k = true ↔ k ∈ iter r) ∧ len r = (iter r).length ∧ iter r <+: iter r' := by
  have gen : ∀ (ops : List (Op W K (Item A))) (r : Reporter W K (Item A)), Sound r →
      Sound (runOps fuel missing r ops).1 ∧ iter r <+: iter (runOps fuel missing r ops).1 := by
    intro ops
    induction ops with
    | nil => intro r h; exact ⟨h, List.prefix_refl _⟩
    | cons op ops ih =>
      intro r h
      obtain ⟨h1, h2⟩ := apply_sound fuel missing r op h
      obtain ⟨h3, h4⟩ := ih _ h1
      exact ⟨h3, h2.trans h4⟩
  rintro r r' rfl rfl
  have h0 : Sound (⟨w, getters, [], []⟩ : Reporter W K (Item A)) := ⟨hg, by simp [dictGet]⟩
  have h1 := (gen ops _ h0).1
  exact ⟨h1, h1.1, fun k => dictGet_isSome _ _, rfl, (gen more _ h1).2⟩

/-- **C127.** Reading a key that is not there raises a KeyError and changes nothing. -/
theorem C127_missing (fuel : ℕ) (r : Reporter W K (Item A)) (h : Sound r) (k : K) (hk : contains r k = false) : getitem (fuel + 1) r k = (r, .error .keyError) := by
  have h1 : dictGet r.getters k = none := by simpa [contains] using hk
  have h2 : dictGet r.computed k = none := by
    cases hc : dictGet r.computed k with
    | none => rfl
    | some v => have := h.2 k (by rw [hc]; rfl); rw [h1] at this; cases this
  simp only [getitem, get_succ, h1, h2]
  rfl

/-- **C127.** Tensors and object arrays are handed out read-only, in the memory of the value that the reporter keeps; other values are handed out as they are. -/
theorem C127_read_only (rank : K → ℕ) (fuel : ℕ) (r : Reporter W K (Item A)) (hr : Status.Ranked rank r.getters) (k : K) (v : Item A) (h : (getitem fuel r k).2 = .ok v) :
    (∀ m, v ≠ .tensor m false ∧ v ≠ .objects m false) ∧
    ∃ stored, dictGet (getitem fuel r k).1.computed k = some stored ∧
      (∀ m b, stored = .tensor m b → v = .tensor m true) ∧ (∀ m b, stored = .objects m b → v = .objects m true) ∧ ∀ x, stored = .other x → v = .other x := by
  obtain ⟨new, -, -, hstored⟩ := Status.get_extends rank fuel r k hr
  simp only [getitem] at h ⊢
  cases hv : (get fuel r k).2 with
  | error e => rw [hv] at h; cases h
  | ok s =>
    rw [hv] at h
    simp only [Except.map, Except.ok.injEq] at h
    subst h
    refine ⟨?_, s, hstored s hv, ?_, ?_, ?_⟩
    · intro m; cases s <;> simp [Item.view]
    · rintro m b rfl; rfl
    · rintro m b rfl; rfl
    · rintro x rfl; rfl

/-- **C127.** Printing the status shows every key, with its value if that is known and as not yet computed otherwise; nothing is computed by it. -/
theorem C127_print (fuel : ℕ) (r : Reporter W K (Item A)) : toString (fuel + 1) r = (r, .ok ((iter r).map fun k => (k, dictGet r.computed k))) := by
  unfold toString
  generalize iter r = ks
  induction ks with
  | nil => rfl
  | cons k ks ih =>
    rw [lines]
    cases hc : dictGet r.computed k with
    | none => simp [ih, Except.map, hc]
    | some v => simp [get_succ, ih, Except.map, hc]

/-- **C127.** `dict(status)`, which is what the log hooks receive, has the keys of the status in the same order, and afterwards every key has a value, which is the one in the dictionary (tensors being
read-only there). The object reported on is unchanged, and no getter was called whose value was known, nor one twice. -/
theorem C127_to_dict (rank : K → ℕ) (fuel : ℕ) (r r' : Reporter W K (Item A)) (hr : Status.Ranked rank r.getters) (d : Dict K (Item A)) (h : toDict fuel r = (r', .ok d)) :
    d.map (·.1) = iter r ∧ iter r' = iter r ∧ r'.world = r.world ∧
    (∀ kv ∈ d, ∃ stored, dictGet r'.computed kv.1 = some stored ∧ kv.2 = stored.view) ∧
    ∃ new, r'.log = r.log ++ new ∧ new.Nodup ∧ ∀ x ∈ new, dictGet r.computed x = none := by
  have gen : ∀ (ks : List K) (r r' : Reporter W K (Item A)) (d : Dict K (Item A)), Status.Ranked rank r.getters → items fuel r ks = (r', .ok d) →
      d.map (·.1) = ks ∧ (∀ kv ∈ d, ∃ stored, dictGet r'.computed kv.1 = some stored ∧ kv.2 = stored.view) ∧ ∃ new, Status.Extends r r' new := by
    intro ks
    induction ks with
    | nil =>
      intro r r' d _ h
      simp only [items, Prod.mk.injEq, Except.ok.injEq] at h
      obtain ⟨rfl, rfl⟩ := h
      exact ⟨rfl, by simp, [], Status.Extends.refl r⟩
    | cons k ks ih =>
      intro r r' d hr h
      obtain ⟨new1, he, -, hstored⟩ := Status.get_extends rank fuel r k hr
      rw [items] at h
      cases hg : getitem fuel r k with
      | mk r1 res =>
        rw [hg] at h
        cases res with
        | error e => simp at h
        | ok v =>
          simp only at h
          have hr1 : r1 = (get fuel r k).1 := by simpa [getitem] using (congrArg Prod.fst hg).symm
          obtain ⟨s, hs, hsv⟩ : ∃ s, (get fuel r k).2 = .ok s ∧ v = s.view := by
            have := congrArg Prod.snd hg
            simp only [getitem] at this
            cases hx : (get fuel r k).2 with
            | error e => rw [hx] at this; cases this
            | ok s => rw [hx] at this; simp only [Except.map, Except.ok.injEq] at this; exact ⟨s, rfl, this.symm⟩
          cases hi : items fuel r1 ks with
          | mk r2 res2 =>
            rw [hi] at h
            cases res2 with
            | error e => simp [Except.map] at h
            | ok d' =>
              simp only [Except.map, Prod.mk.injEq, Except.ok.injEq] at h
              obtain ⟨rfl, rfl⟩ := h
              obtain ⟨h1, h2, new2, h3⟩ := ih r1 r2 d' (by rw [hr1, he.getters]; exact hr) hi
              rw [hr1] at h3
              refine ⟨by simp [h1], ?_, new1 ++ new2, he.trans h3⟩
              intro kv hkv
              rcases List.mem_cons.mp hkv with rfl | hkv
              · exact ⟨s, h3.keeps _ _ (hstored s hs), hsv⟩
              · exact h2 kv hkv
  obtain ⟨h1, h2, new, h3⟩ := gen _ r r' d hr h
  exact ⟨h1, by simp only [iter, h3.getters], h3.world, h2, new, h3.log, h3.nodup, h3.missing⟩

/-! ### Steps and times -/

variable {T : Type}

/-- What happened: a step was begun at a time, and succeeded or not; or the time was reset. -/
inductive Ev (T : Type) where
  | step (now : T) (ok : Bool)
  | reset

/-- The steps that a run begins: all up to the first that fails. -/
def begun : List (T × Bool) → List (Ev T)
  | [] => []
  | (now, true) :: rest => .step now true :: begun rest
  | (now, false) :: _ => [.step now false]

/-- The events of an action. -/
def events : Act T → List (Ev T)
  | .step now ok => [.step now ok]
  | .reset => [.reset]
  | .run resetFirst steps => (if resetFirst then [.reset] else []) ++ begun steps

/-- `t` is the time of the first step since the last reset (or since the beginning). -/
def FirstSince (evs : List (Ev T)) (t : T) : Prop :=
  ∃ pre ok post, evs = pre ++ .step t ok :: post ∧ (pre = [] ∨ ∃ pre', pre = pre' ++ [.reset]) ∧ Ev.reset ∉ post

/-- One event. -/
def evApply (c : Clock T) : Ev T → Clock T
  | .step now ok => step c now ok
  | .reset => reset c

theorem runSteps_events (steps : List (T × Bool)) : ∀ c : Clock T, runSteps c steps = (begun steps).foldl evApply c := by
  induction steps with
  | nil => intro c; rfl
  | cons s steps ih =>
    intro c
    obtain ⟨now, ok⟩ := s
    cases ok with
    | true => simp only [runSteps, begun, if_true, List.foldl_cons, ih]; rfl
    | false => rfl

theorem act_events (c : Clock T) (a : Act T) : act c a = (events a).foldl evApply c := by
  cases a with
  | step now ok => rfl
  | reset => rfl
  | run b steps =>
    simp only [act, run, events, runSteps_events]
    cases b <;> simp [evApply]

theorem history_events (acts : List (Act T)) : history acts = (acts.flatMap events).foldl evApply {} := by
  have gen : ∀ c : Clock T, acts.foldl act c = (acts.flatMap events).foldl evApply c := by
    induction acts with
    | nil => intro c; rfl
    | cons a acts ih => intro c; rw [List.foldl_cons, List.flatMap_cons, List.foldl_append, ← act_events, ih]
  exact gen {}

/-- **C127.** `first_step_datetime` is the time of the first step since the last reset, where `run` begins with a reset unless told otherwise; there is none exactly if no step was begun since then.
`step_count` is the number of steps that succeeded. This holds after any history of steps, resets and runs, with steps that fail. -/
theorem C127_steps (acts : List (Act T)) :
    (∀ t, (history acts).first = some t ↔ FirstSince (acts.flatMap events) t) ∧
    (history acts).steps = ((acts.flatMap events).filter fun e => match e with | .step _ ok => ok | .reset => false).length := by
  rw [history_events]
  generalize acts.flatMap events = evs
  have hnone : ∀ evs : List (Ev T), (∀ t, ¬ FirstSince evs t) → evs = [] ∨ ∃ e, evs = e ++ [.reset] := by
    intro evs
    induction evs using List.reverseRecOn with
    | nil => intro _; exact Or.inl rfl
    | append_singleton evs e ih =>
      intro h
      cases e with
      | reset => exact Or.inr ⟨evs, rfl⟩
      | step now ok =>
        exfalso
        have h' : ∀ t, ¬ FirstSince evs t := by
          rintro t ⟨pre, b, post, rfl, h1, h2⟩
          exact h t ⟨pre, b, post ++ [.step now ok], by simp, h1, by simp [h2]⟩
        rcases ih h' with rfl | ⟨e, rfl⟩
        · exact h now ⟨[], ok, [], rfl, Or.inl rfl, by simp⟩
        · exact h now ⟨e ++ [.reset], ok, [], rfl, Or.inr ⟨e, rfl⟩, by simp⟩
  induction evs using List.reverseRecOn with
  | nil => exact ⟨fun t => ⟨by simp, by rintro ⟨pre, b, post, h, -⟩; simp at h⟩, rfl⟩
  | append_singleton evs e ih =>
    obtain ⟨ih1, ih2⟩ := ih
    rw [List.foldl_append, List.foldl_cons, List.foldl_nil, List.filter_append, List.length_append]
    set c := evs.foldl evApply ({} : Clock T) with hc
    cases e with
    | reset =>
      refine ⟨fun t => ⟨by intro h; simp [evApply, reset] at h, ?_⟩, by simp [evApply, reset, ih2]⟩
      rintro ⟨pre, b, post, h, h1, h2⟩
      exfalso
      rcases List.eq_nil_or_concat post with rfl | ⟨post', x, rfl⟩
      · simpa using congrArg List.getLast? h
      · have hx := congrArg List.getLast? h
        simp only [List.concat_eq_append, List.getLast?_append, List.getLast?_singleton, List.getLast?_cons, Option.getD_some, Option.some_or] at hx
        apply h2
        simp only [List.concat_eq_append, List.mem_append, List.mem_singleton]
        right
        simpa using hx
    | step now ok =>
      have hsteps : (evApply c (.step now ok)).steps = c.steps + if ok then 1 else 0 := by
        cases ok <;> cases hf : c.first <;> simp [evApply, step, hf]
      have hfirst : (evApply c (.step now ok)).first = c.first.or (some now) := by
        cases ok <;> cases hf : c.first <;> simp [evApply, step, hf]
      refine ⟨?_, by rw [hsteps, ih2]; cases ok <;> simp⟩
      intro t
      rw [hfirst]
      cases hf : c.first with
      | some t0 =>
        have h0 := (ih1 t0).mp hf
        simp only [Option.some_or, Option.some.injEq]
        constructor
        · rintro rfl
          obtain ⟨pre, b, post, rfl, h1, h2⟩ := h0
          exact ⟨pre, b, post ++ [.step now ok], by simp, h1, by simp [h2]⟩
        · rintro ⟨pre, b, post, h, h1, h2⟩
          rcases List.eq_nil_or_concat post with rfl | ⟨post', x, rfl⟩
          · exfalso
            have hevs : evs = pre := by
              have := congrArg List.dropLast h
              simpa using this
            subst hevs
            have : ¬ FirstSince evs t0 := by
              rintro ⟨p, b', q, hq, -, hr⟩
              rcases h1 with rfl | ⟨pre', rfl⟩
              · simp at hq
              · rcases List.eq_nil_or_concat q with rfl | ⟨q', x, rfl⟩
                · simpa using congrArg List.getLast? hq
                · have hx := congrArg List.getLast? hq
                  simp only [List.concat_eq_append, List.getLast?_append, List.getLast?_singleton, List.getLast?_cons, Option.getD_some, Option.some_or] at hx
                  apply hr
                  simp only [List.concat_eq_append, List.mem_append, List.mem_singleton]
                  right
                  simpa using hx
            exact this h0
          · have hevs : evs = pre ++ .step t b :: post' := by
              have := congrArg List.dropLast h
              simpa [List.dropLast_append_of_ne_nil, List.dropLast_cons_of_ne_nil] using this
            have : FirstSince evs t := ⟨pre, b, post', hevs, h1, fun hm => h2 (by simp [hm])⟩
            have := (ih1 t).mpr this
            rw [hf] at this
            exact Option.some.inj this
      | none =>
        simp only [Option.none_or, Option.some.injEq]
        have hno : ∀ t, ¬ FirstSince evs t := fun t ht => by
          have := (ih1 t).mpr ht
          rw [hf] at this; cases this
        constructor
        · rintro rfl
          exact ⟨evs, ok, [], rfl, hnone evs hno, by simp⟩
        · rintro ⟨pre, b, post, h, h1, h2⟩
          rcases List.eq_nil_or_concat post with rfl | ⟨post', x, rfl⟩
          · have := congrArg List.getLast? h
            simp only [List.getLast?_append, List.getLast?_singleton, Option.some_or, Option.some.injEq, Ev.step.injEq] at this
            exact this.1
          · exfalso
            have hevs : evs = pre ++ .step t b :: post' := by
              have := congrArg List.dropLast h
              simpa [List.dropLast_append_of_ne_nil, List.dropLast_cons_of_ne_nil] using this
            exact hno t ⟨pre, b, post', hevs, h1, fun hm => h2 (by simp [hm])⟩

/-- **C127.** A run of no generations forgets the time of the first step, and keeps the number of steps. -/
theorem C127_empty_run (acts : List (Act T)) : (history (acts ++ [.run true []])).first = none ∧ (history (acts ++ [.run true []])).steps = (history acts).steps := by
  simp [history, act, run, runSteps, reset]

/-! Examples. -/
example : (history [.step 5 true, .step 6 false, .run true [(7, true), (8, true)], .run false [(9, true)]] : Clock ℕ).first = some 7 ∧
    (history [.step 5 true, .step 6 false, .run true [(7, true), (8, true)], .run false [(9, true)]] : Clock ℕ).steps = 4 := by decide

/-- A reporter with a mutable tensor and a count. -/
def sampleView : Reporter ℕ String (Item ℕ) := ⟨3, [("center", ⟨[], fun _ _ => .tensor 1 false⟩), ("count", ⟨[], fun w _ => .other w⟩)], [], []⟩

example : (toDict 2 sampleView).2 = .ok [("center", .tensor 1 true), ("count", .other 3)] ∧ (toString 2 sampleView).2 = .ok [("center", none), ("count", none)] ∧
    (toString 2 (getitem 2 sampleView "count").1).2 = .ok [("center", none), ("count", some (.other 3))] := ⟨rfl, rfl, rfl⟩
example : Status.Ranked (fun _ : String => 0) sampleView.getters := by
  intro k g h d hd
  simp only [sampleView, dictGet, List.find?_cons, List.find?_nil] at h
  split at h
  · simp only [Option.map_some, Option.some.injEq] at h; subst h; cases hd
  · split at h
    · simp only [Option.map_some, Option.some.injEq] at h; subst h; cases hd
    · cases h
example : Sound sampleView := ⟨by simp [KeysNodup, sampleView], by simp [sampleView, dictGet]⟩

end EvoTorch.StatusView
