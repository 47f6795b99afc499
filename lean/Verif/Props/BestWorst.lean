import Verif.Spec.BestWorst
import Mathlib.Data.Fintype.Basic
/-!
C11 (best and worst solutions of a history of evaluations) and C12 (comparison of solutions).
-/
namespace EvoTorch.BestWorst
variable {V K : Type} {m : Nat} [LinearOrder K]

theorem getElem?_col (batch : List (Row V K m)) (o : Fin m) (i : Nat) (r : Row V K m) (h : batch[i]? = some r) :
    (column batch o)[i]? = some (r.evals o) := by simp [column, h]

theorem better_trans' {s : Sense} {a b c : Flt K} (hb : b.isNan = false) (h1 : ¬ Better s a b) (h2 : ¬ Better s b c) :
    ¬ Better s a c := by
  cases s <;> simp only [Better, Bool.not_eq_true] at *
  · exact Flt.not_lt_trans hb h2 h1
  · exact Flt.not_lt_trans hb h1 h2

theorem better_lift {s : Sense} {a b c : Flt K} (hb : b.isNan = false) (h1 : Better s a c) (h2 : ¬ Better s b c) :
    Better s a b := by
  cases s <;> simp only [Better, Bool.not_eq_true] at *
  · exact Flt.lt_of_lt_of_not_lt hb h1 h2
  · exact Flt.lt_of_not_lt_of_lt hb h2 h1

theorem better_irrefl (s : Sense) (a : Flt K) : ¬ Better s a a := by
  cases s <;> simp [Better, Flt.lt_irrefl]

theorem better_asymm {s : Sense} {a b : Flt K} (h : Better s a b) : ¬ Better s b a := by
  cases s <;> simp only [Better, Bool.not_eq_true] at * <;> exact Flt.lt_asymm h

theorem better_num {s : Sense} {a b : Flt K} (h : Better s a b) : a.isNan = false := by
  cases s <;> simp only [Better] at h
  · exact Flt.isNan_of_lt_left h
  · exact Flt.isNan_of_lt_right h

theorem not_better_bad {s : Sense} {a : Flt K} (h : a.isNan = false) (hb : ¬ Better s a s.bad) : a = s.bad := by
  cases s <;> cases a <;> simp_all [Better, Sense.bad, Flt.lt, Flt.isNan]

theorem not_better_than_bad (s : Sense) (a : Flt K) : ¬ Better s s.bad a := by
  cases s <;> cases a <;> simp [Better, Sense.bad, Flt.lt]

/-- One champion update. -/
def champ (s : Sense) (o : Fin m) (batch : List (Row V K m)) (i : Nat) (c : Flt K × Option (Row V K m)) :
    Flt K × Option (Row V K m) :=
  match batch[i]? with
  | none => c
  | some r => if firstIsBetter s (r.evals o) c.1 then (r.evals o, some r) else c

/-- Index is good for the batch. -/
structure Pick (s : Sense) (o : Fin m) (batch : List (Row V K m)) (i : Nat) : Prop where
  mem : batch ≠ [] → i < batch.length
  best : Complete o batch → ∀ r, batch[i]? = some r → ∀ r' ∈ batch, ¬ Better s (r'.evals o) (r.evals o)

theorem pick_best {A : Args K} (hA : ArgSpec A) (s : Sense) (o : Fin m) (batch : List (Row V K m)) :
    Pick s o batch (argbest A s (column batch o)) := by
  have hne : batch ≠ [] → column batch o ≠ [] := by simp [column]
  have hlen : (column batch o).length = batch.length := by simp [column]
  constructor
  · intro h
    cases s
    · exact hlen ▸ hA.min_mem _ (hne h)
    · exact hlen ▸ hA.max_mem _ (hne h)
  · intro hc r hr r' hr'
    have h1 : ∀ x ∈ column batch o, x.isNan = false := by
      intro x hx; simp only [column, List.mem_map] at hx
      obtain ⟨q, hq, rfl⟩ := hx; exact hc q hq
    have h2 := getElem?_col batch o _ r hr
    have h3 : r'.evals o ∈ column batch o := List.mem_map.mpr ⟨r', hr', rfl⟩
    cases s
    · simp only [Better, Bool.not_eq_true]; exact hA.min_le _ h1 _ h2 _ h3
    · simp only [Better, Bool.not_eq_true]; exact hA.max_ge _ h1 _ h2 _ h3

theorem argworst_eq (A : Args K) (s : Sense) (l : List (Flt K)) : argworst A s l = argbest A s.flip l := by cases s <;> rfl

theorem firstIsBetter_iff (s : Sense) (a b : Flt K) : firstIsBetter s a b = true ↔ Better s a b := by cases s <;> rfl

theorem firstIsWorse_eq (s : Sense) (a b : Flt K) : firstIsWorse s a b = firstIsBetter s.flip a b := by cases s <;> rfl

theorem initBest (s : Sense) : ((initTrack s : Track V K m).bestEval, (initTrack s : Track V K m).best) = (s.bad, none) := by
  cases s <;> rfl

theorem initWorst (s : Sense) : ((initTrack s : Track V K m).worstEval, (initTrack s : Track V K m).worst) = (s.flip.bad, none) := by
  cases s <;> rfl

theorem updateTrack_best (A : Args K) (s : Sense) (o : Fin m) (batch : List (Row V K m)) (t : Track V K m) :
    ((updateTrack A s o batch t).bestEval, (updateTrack A s o batch t).best) =
      champ s o batch (argbest A s (column batch o)) (t.bestEval, t.best) := by
  simp only [updateTrack, champ]
  split <;> split <;> (try split) <;> (try split) <;> simp_all

theorem updateTrack_worst (A : Args K) (s : Sense) (o : Fin m) (batch : List (Row V K m)) (t : Track V K m) :
    ((updateTrack A s o batch t).worstEval, (updateTrack A s o batch t).worst) =
      champ s.flip o batch (argbest A s.flip (column batch o)) (t.worstEval, t.worst) := by
  simp only [updateTrack, champ, argworst_eq, firstIsWorse_eq]
  split <;> split <;> (try split) <;> (try split) <;> simp_all

/-- Invariant of a champion. -/
structure ChampInv (s : Sense) (o : Fin m) (hist : List (List (Row V K m))) (c : Flt K × Option (Row V K m)) : Prop where
  val : c.1 = match c.2 with | some r => r.evals o | none => s.bad
  num : c.1.isNan = false
  mem : ∀ r, c.2 = some r → r ∈ hist.flatten
  top : ∀ batch ∈ hist, Complete o batch → ∀ r' ∈ batch, ¬ Better s (r'.evals o) c.1

theorem champInv_init (s : Sense) (o : Fin m) : ChampInv s o ([] : List (List (Row V K m))) (s.bad, none) :=
  ⟨rfl, by cases s <;> rfl, by simp, by simp⟩

theorem champInv_step {s : Sense} {o : Fin m} {hist : List (List (Row V K m))} {c : Flt K × Option (Row V K m)}
    (h : ChampInv s o hist c) (batch : List (Row V K m)) (i : Nat) (hp : Pick s o batch i) :
    ChampInv s o (hist ++ [batch]) (champ s o batch i c) ∧ ¬ Better s c.1 (champ s o batch i c).1 ∧
    (c.2.isSome → (champ s o batch i c).2.isSome) := by
  by_cases hb : batch = []
  · subst hb
    simp only [champ, List.getElem?_nil]
    refine ⟨⟨h.val, h.num, ?_, ?_⟩, better_irrefl _ _, id⟩
    · intro r hr; simpa using h.mem r hr
    · intro b hb hc r' hr'
      rcases List.mem_append.mp hb with hb | hb
      · exact h.top b hb hc r' hr'
      · simp at hb; subst hb; simp at hr'
  · have hlt := hp.mem hb
    have hr : batch[i]? = some batch[i] := List.getElem?_eq_getElem hlt
    simp only [champ, hr]
    by_cases hbt : firstIsBetter s (batch[i].evals o) c.1 = true
    · rw [if_pos hbt]
      rw [firstIsBetter_iff] at hbt
      refine ⟨⟨rfl, better_num hbt, ?_, ?_⟩, better_asymm hbt, fun _ => rfl⟩
      · intro r hr
        simp only [Option.some.injEq] at hr
        subst hr
        simp
      · intro b hbm hc r' hr'
        rcases List.mem_append.mp hbm with hbm | hbm
        · intro hcon
          have h1 := h.top b hbm hc r' hr'
          exact h1 (better_lift h.num hcon (better_asymm hbt))
        · simp only [List.mem_singleton] at hbm
          subst hbm
          exact hp.best hc _ hr r' hr'
    · rw [if_neg hbt]
      rw [firstIsBetter_iff] at hbt
      refine ⟨⟨h.val, h.num, ?_, ?_⟩, better_irrefl _ _, id⟩
      · intro r hr; have := h.mem r hr; simp only [List.flatten_append, List.mem_append]; exact Or.inl this
      · intro b hbm hc r' hr'
        rcases List.mem_append.mp hbm with hbm | hbm
        · exact h.top b hbm hc r' hr'
        · simp only [List.mem_singleton] at hbm
          subst hbm
          exact better_trans' (hc _ (List.getElem_mem hlt)) (hp.best hc _ hr r' hr') hbt

/-- Tracks described by two champions. -/
def TrackInv (s : Sense) (o : Fin m) (hist : List (List (Row V K m))) (t : Track V K m) : Prop :=
  ChampInv s o hist (t.bestEval, t.best) ∧ ChampInv s.flip o hist (t.worstEval, t.worst)

theorem trackInv_init (s : Sense) (o : Fin m) : TrackInv s o ([] : List (List (Row V K m))) (initTrack s) := by
  refine ⟨?_, ?_⟩
  · rw [initBest]; exact champInv_init s o
  · rw [initWorst]; exact champInv_init s.flip o

theorem champInv_nil {s : Sense} {o : Fin m} {hist : List (List (Row V K m))} {c : Flt K × Option (Row V K m)}
    (h : ChampInv s o hist c) : ChampInv s o (hist ++ [[]]) c := by
  have := (champInv_step h [] 0 ⟨by simp, by simp⟩).1
  simpa [champ] using this

theorem step_inv {A : Args K} (hA : ArgSpec A) (senses : Fin m → Sense) (hist : List (List (Row V K m)))
    (st : State V K m) (h : ∀ o, TrackInv (senses o) o hist ((st.getD fun o => initTrack (senses o)) o)) (batch : List (Row V K m)) :
    ∃ t, (getBestAndWorst A senses st batch).state = some t ∧ ∀ o, TrackInv (senses o) o (hist ++ [batch]) (t o) ∧
      ¬ Better (senses o) ((st.getD fun o => initTrack (senses o)) o).bestEval (t o).bestEval ∧
      ¬ Better (senses o).flip ((st.getD fun o => initTrack (senses o)) o).worstEval (t o).worstEval ∧
      (((st.getD fun o => initTrack (senses o)) o).best.isSome → (t o).best.isSome) ∧
      (((st.getD fun o => initTrack (senses o)) o).worst.isSome → (t o).worst.isSome) := by
  simp only [getBestAndWorst]
  by_cases hb : batch = []
  · rw [if_pos hb]
    refine ⟨_, rfl, fun o => ⟨⟨?_, ?_⟩, better_irrefl _ _, better_irrefl _ _, id, id⟩⟩
    · subst hb; exact champInv_nil (h o).1
    · subst hb; exact champInv_nil (h o).2
  · rw [if_neg hb]
    refine ⟨_, rfl, fun o => ?_⟩
    have h1 := champInv_step (h o).1 batch _ (pick_best hA (senses o) o batch)
    have h2 := champInv_step (h o).2 batch _ (pick_best hA (senses o).flip o batch)
    rw [← updateTrack_best] at h1
    rw [← updateTrack_worst] at h2
    exact ⟨⟨h1.1, h2.1⟩, h1.2.1, h2.2.1, h1.2.2, h2.2.2⟩

theorem run_inv {A : Args K} (hA : ArgSpec A) (senses : Fin m → Sense) (pre hist : List (List (Row V K m)))
    (st : State V K m) (h : ∀ o, TrackInv (senses o) o pre ((st.getD fun o => initTrack (senses o)) o)) (o : Fin m) :
    let st' := hist.foldl (fun st b => (getBestAndWorst A senses st b).state) st
    let t := (st.getD fun o => initTrack (senses o)) o
    let t' := (st'.getD fun o => initTrack (senses o)) o
    TrackInv (senses o) o (pre ++ hist) t' ∧
      ¬ Better (senses o) t.bestEval t'.bestEval ∧ ¬ Better (senses o).flip t.worstEval t'.worstEval ∧
      (t.best.isSome → t'.best.isSome) ∧ (t.worst.isSome → t'.worst.isSome) := by
  induction hist generalizing pre st with
  | nil => simp only [List.foldl_nil, List.append_nil]; exact ⟨h o, better_irrefl _ _, better_irrefl _ _, id, id⟩
  | cons b rest ih =>
    obtain ⟨t, ht, hinv⟩ := step_inv hA senses pre st h b
    have := ih (pre ++ [b]) (getBestAndWorst A senses st b).state (by rw [ht]; exact fun o => (hinv o).1)
    simp only [List.foldl_cons]
    rw [ht] at this ⊢
    simp only [List.append_assoc, List.singleton_append, Option.getD_some] at this ⊢
    obtain ⟨h1, h2, h3, h4, h5⟩ := this
    obtain ⟨g1, g2, g3, g4, g5⟩ := hinv o
    exact ⟨h1, better_trans' g1.1.num g2 h2, better_trans' g1.2.num g3 h3, fun x => h4 (g4 x), fun x => h5 (g5 x)⟩

theorem extreme_of_champ {s : Sense} {o : Fin m} {hist : List (List (Row V K m))} {c : Flt K} {r : Option (Row V K m)}
    (h : ChampInv s o hist (c, r)) : Extreme s o hist r := by
  cases r with
  | some r =>
    have hv : c = r.evals o := h.val
    subst hv
    exact ⟨h.mem r rfl, h.num, h.top⟩
  | none =>
    have hv : c = s.bad := h.val
    subst hv
    intro b hb hc r' hr'
    exact not_better_bad (hc r' hr') (h.top b hb hc r' hr')

/-- **C11 (partial).** After any history of evaluations, for every objective, the stored best is the extreme of the history for the
objective's sense and the stored worst is the extreme for the opposite sense.
Missing: solutions evaluated in the same batch as one whose evaluation is NaN; for these the claim is false
(`C11_violated_by_nan`). -/
theorem C11_best_worst_partial {A : Args K} (hA : ArgSpec A) (senses : Fin m → Sense) (hist : List (List (Row V K m)))
    (t : Fin m → Track V K m) (ht : runHistory A senses hist = some t) (o : Fin m) :
    Extreme (senses o) o hist (t o).best ∧ Extreme (senses o).flip o hist (t o).worst := by
  have h := (run_inv hA senses [] hist none (fun o => trackInv_init (senses o) o) o).1
  unfold runHistory at ht
  rw [ht] at h
  exact ⟨extreme_of_champ h.1, extreme_of_champ h.2⟩

/-- **C11 (NaN-free histories).** If no evaluation is NaN, the stored best is an evaluated solution and no evaluated solution is
strictly better; the stored worst is an evaluated solution and no evaluated solution is strictly worse. -/
theorem C11_best_worst_exact_without_nan {A : Args K} (hA : ArgSpec A) (senses : Fin m → Sense) (hist : List (List (Row V K m)))
    (t : Fin m → Track V K m) (ht : runHistory A senses hist = some t) (o : Fin m)
    (hnan : ∀ r ∈ hist.flatten, (r.evals o).isNan = false) :
    (∀ b, (t o).best = some b → b ∈ hist.flatten ∧ ∀ r ∈ hist.flatten, ¬ Better (senses o) (r.evals o) (b.evals o)) ∧
    (∀ w, (t o).worst = some w → w ∈ hist.flatten ∧ ∀ r ∈ hist.flatten, ¬ Better (senses o) (w.evals o) (r.evals o)) ∧
    ((t o).best = none → ∀ r ∈ hist.flatten, r.evals o = (senses o).bad) := by
  have h := C11_best_worst_partial hA senses hist t ht o
  have hc : ∀ b ∈ hist, Complete o b := fun b hb r hr => hnan r (List.mem_flatten.mpr ⟨b, hb, hr⟩)
  refine ⟨?_, ?_, ?_⟩
  · intro b hb
    rw [hb] at h
    refine ⟨h.1.1, fun r hr => ?_⟩
    obtain ⟨bt, h1, h2⟩ := List.mem_flatten.mp hr
    exact h.1.2.2 bt h1 (hc bt h1) r h2
  · intro b hb
    rw [hb] at h
    refine ⟨h.2.1, fun r hr => ?_⟩
    obtain ⟨bt, h1, h2⟩ := List.mem_flatten.mp hr
    have := h.2.2.2 bt h1 (hc bt h1) r h2
    cases hs : senses o <;> rw [hs] at this <;> exact this
  · intro hb r hr
    rw [hb] at h
    obtain ⟨bt, h1, h2⟩ := List.mem_flatten.mp hr
    exact h.1 bt h1 (hc bt h1) r h2

/-- **C11 (never worsens).** Once a best solution is stored, there is one after any further evaluations (NaN or not), and the former is
not strictly better than the latter; likewise for the worst. -/
theorem C11_never_worsens {A : Args K} (hA : ArgSpec A) (senses : Fin m → Sense) (hist more : List (List (Row V K m)))
    (t t' : Fin m → Track V K m) (ht : runHistory A senses hist = some t) (ht' : runHistory A senses (hist ++ more) = some t')
    (o : Fin m) :
    (∀ b, (t o).best = some b → ∃ b', (t' o).best = some b' ∧ ¬ Better (senses o) (b.evals o) (b'.evals o)) ∧
    (∀ w, (t o).worst = some w → ∃ w', (t' o).worst = some w' ∧ ¬ Better (senses o) (w'.evals o) (w.evals o)) := by
  have h0 : ∀ o, TrackInv (senses o) o hist (t o) := by
    intro o
    have h := (run_inv hA senses [] hist none (fun o => trackInv_init (senses o) o) o).1
    unfold runHistory at ht
    rw [ht] at h
    exact h
  have h := run_inv hA senses hist more (some t) h0 o
  unfold runHistory at ht ht'
  rw [List.foldl_append, ht] at ht'
  simp only [ht', Option.getD_some] at h
  obtain ⟨h1, h2, h3, h4, h5⟩ := h
  constructor
  · intro b hb
    obtain ⟨b', hb'⟩ := Option.isSome_iff_exists.mp (h4 (by simp [hb]))
    refine ⟨b', hb', ?_⟩
    have e1 := (h0 o).1.val
    have e2 := h1.1.val
    simp only [hb, hb'] at e1 e2
    rw [← e1, ← e2]; exact h2
  · intro b hb
    obtain ⟨b', hb'⟩ := Option.isSome_iff_exists.mp (h5 (by simp [hb]))
    refine ⟨b', hb', ?_⟩
    have e1 := (h0 o).2.val
    have e2 := h1.2.val
    simp only [hb, hb'] at e1 e2
    rw [e1, e2] at h3
    cases hs : senses o <;> rw [hs] at h3 <;> exact h3

/-- **C11 (after a proper evaluation the status is available).** If some batch of the history is non-empty, free of NaN and contains a
solution that is not infinitely bad (resp. not infinitely good), then a best (resp. worst) solution is stored. -/
theorem C11_best_present {A : Args K} (hA : ArgSpec A) (senses : Fin m → Sense) (hist : List (List (Row V K m)))
    (t : Fin m → Track V K m) (ht : runHistory A senses hist = some t) (o : Fin m)
    (batch : List (Row V K m)) (hb : batch ∈ hist) (hc : Complete o batch) (r : Row V K m) (hr : r ∈ batch) :
    (r.evals o ≠ (senses o).bad → (t o).best.isSome) ∧ (r.evals o ≠ (senses o).flip.bad → (t o).worst.isSome) := by
  have h := C11_best_worst_partial hA senses hist t ht o
  constructor
  · intro hne
    cases hx : (t o).best with
    | some _ => rfl
    | none => rw [hx] at h; exact absurd (h.1 batch hb hc r hr) hne
  · intro hne
    cases hx : (t o).worst with
    | some _ => rfl
    | none => rw [hx] at h; exact absurd (h.2 batch hb hc r hr) hne

/-- The specification of `argmin`/`argmax` is satisfiable: the reference implementation meets it. -/
theorem firstArg_spec (better : Flt K → Flt K → Bool)
    (htr : ∀ a b c : Flt K, b.isNan = false → better a b = false → better b c = false → better a c = false)
    (hirr : ∀ a : Flt K, better a a = false) (has : ∀ a b : Flt K, better a b = true → better b a = false) :
    ∀ l : List (Flt K), l ≠ [] → l[(firstArg better l).1]? = some (firstArg better l).2 ∧
      ((∃ x ∈ l, x.isNan = true) → (firstArg better l).2.isNan = true) ∧
      ((∀ x ∈ l, x.isNan = false) → ∀ x ∈ l, better x (firstArg better l).2 = false) := by
  intro l
  induction l with
  | nil => intro h; exact absurd rfl h
  | cons x rest ih =>
    intro _
    cases rest with
    | nil => simp [firstArg, hirr]
    | cons y rest =>
      obtain ⟨h1, h2, h3⟩ := ih (by simp)
      have hmem := List.mem_of_getElem? h1
      simp only [firstArg]
      by_cases hx : x.isNan = true
      · rw [if_pos hx]
        refine ⟨rfl, fun _ => hx, fun h => ?_⟩
        have := h x (by simp); rw [hx] at this; cases this
      · rw [if_neg hx]
        have hx' : x.isNan = false := by simpa using hx
        by_cases hr : (firstArg better (y :: rest)).2.isNan = true
        · rw [if_pos hr]
          refine ⟨by simpa using h1, fun _ => hr, fun h => ?_⟩
          have := h _ (List.mem_cons_of_mem _ hmem); rw [hr] at this; cases this
        · rw [if_neg hr]
          have hnone : ¬ ∃ z ∈ x :: y :: rest, z.isNan = true := by
            rintro ⟨z, hz, hzn⟩
            rcases List.mem_cons.mp hz with rfl | hz
            · exact hx hzn
            · exact hr (h2 ⟨z, hz, hzn⟩)
          have hr' : (firstArg better (y :: rest)).2.isNan = false := by simpa using hr
          by_cases hbt : better (firstArg better (y :: rest)).2 x = true
          · rw [if_pos hbt]
            refine ⟨by simpa using h1, fun h => absurd h hnone, fun h z hz => ?_⟩
            rcases List.mem_cons.mp hz with rfl | hz
            · exact has _ _ hbt
            · exact h3 (fun w hw => h w (List.mem_cons_of_mem _ hw)) z hz
          · rw [if_neg hbt]
            refine ⟨rfl, fun h => absurd h hnone, fun h z hz => ?_⟩
            rcases List.mem_cons.mp hz with rfl | hz
            · exact hirr _
            · exact htr _ _ _ hr' (h3 (fun w hw => h w (List.mem_cons_of_mem _ hw)) z hz) (by simpa using hbt)

theorem refArgs_spec : ArgSpec (refArgs : Args K) := by
  have hmin := firstArg_spec (fun a b : Flt K => Flt.lt a b)
    (fun a b c hb h1 h2 => Flt.not_lt_trans hb h2 h1) Flt.lt_irrefl (fun a b h => Flt.lt_asymm h)
  have hmax := firstArg_spec (fun a b : Flt K => Flt.lt b a)
    (fun a b c hb h1 h2 => Flt.not_lt_trans hb h1 h2) Flt.lt_irrefl (fun a b h => Flt.lt_asymm h)
  refine ⟨?_, ?_, ?_, ?_, ?_, ?_⟩
  · intro l h; exact (List.getElem?_eq_some_iff.mp (hmin l h).1).1
  · intro l h; exact (List.getElem?_eq_some_iff.mp (hmax l h).1).1
  · rintro l ⟨x, hx, hn⟩ y hy
    have hne : l ≠ [] := by rintro rfl; simp at hx
    have := (hmin l hne).1
    simp only [refArgs] at hy
    rw [this, Option.some.injEq] at hy
    rw [← hy]; exact (hmin l hne).2.1 ⟨x, hx, hn⟩
  · rintro l ⟨x, hx, hn⟩ y hy
    have hne : l ≠ [] := by rintro rfl; simp at hx
    have := (hmax l hne).1
    simp only [refArgs] at hy
    rw [this, Option.some.injEq] at hy
    rw [← hy]; exact (hmax l hne).2.1 ⟨x, hx, hn⟩
  · intro l h y hy x hx
    have hne : l ≠ [] := by rintro rfl; simp at hx
    have := (hmin l hne).1
    simp only [refArgs] at hy
    rw [this, Option.some.injEq] at hy
    rw [← hy]; exact (hmin l hne).2.2 h x hx
  · intro l h y hy x hx
    have hne : l ≠ [] := by rintro rfl; simp at hx
    have := (hmax l hne).1
    simp only [refArgs] at hy
    rw [this, Option.some.injEq] at hy
    rw [← hy]; exact (hmax l hne).2.2 h x hx

/-- A history meeting the hypotheses: two batches, minimisation; the best is the second row of the second batch. -/
example :
    let row (v : Nat) (e : Int) : Row Nat Int 1 := ⟨v, fun _ => .fin e⟩
    ((runHistory refArgs (fun _ => .min) [[row 0 5, row 1 7], [row 2 6, row 3 2]]).map fun t =>
      ((t 0).best.map (·.values), (t 0).worst.map (·.values))) = some (some 3, some 1) := by decide

/-- **C11 is false of the code in presence of NaN**: a NaN in the batch hides the other solutions of the batch. Whatever the tracked
best was (or none), if the batch contains a NaN for objective `o`, then the best of `o` does not change, even if the batch
contains a strictly better solution. -/
theorem C11_violated_by_nan {A : Args K} (hA : ArgSpec A) (s : Sense) (o : Fin m) (batch : List (Row V K m)) (t : Track V K m)
    (hnan : ∃ r ∈ batch, (r.evals o).isNan = true) :
    updateTrack A s o batch t = t := by
  obtain ⟨r, hr, hn⟩ := hnan
  have hcol : ∃ x ∈ column batch o, x.isNan = true := ⟨_, List.mem_map.mpr ⟨r, hr, rfl⟩, hn⟩
  have key : ∀ s, ∀ q, batch[argbest A s (column batch o)]? = some q → (q.evals o).isNan = true := by
    intro s q hq
    have := getElem?_col batch o _ q hq
    cases s
    · exact hA.min_nan _ hcol _ this
    · exact hA.max_nan _ hcol _ this
  have nb : ∀ (s : Sense) (a b : Flt K), a.isNan = true → firstIsBetter s a b = false := by
    intro s a b h
    cases s <;> cases a <;> cases b <;> simp_all [firstIsBetter, Flt.lt, Flt.isNan]
  have hb : ((updateTrack A s o batch t).bestEval, (updateTrack A s o batch t).best) = (t.bestEval, t.best) := by
    rw [updateTrack_best, champ]
    split
    · rfl
    · rename_i q hq
      rw [if_neg (by rw [nb _ _ _ (key _ q hq)]; simp)]
  have hw : ((updateTrack A s o batch t).worstEval, (updateTrack A s o batch t).worst) = (t.worstEval, t.worst) := by
    rw [updateTrack_worst, champ]
    split
    · rfl
    · rename_i q hq
      rw [if_neg (by rw [nb _ _ _ (key _ q hq)]; simp)]
  rw [Prod.mk.injEq] at hb hw
  cases h : updateTrack A s o batch t
  cases t
  simp_all

/-- The witness: evaluations 5, then NaN and 1 in one batch (minimisation). The best remains 5, although 1 was evaluated. -/
theorem C11_violated_witness :
    let row (v : Nat) (e : Flt Int) : Row Nat Int 1 := ⟨v, fun _ => e⟩
    let hist := [[row 0 (.fin 5)], [row 1 .nan, row 2 (.fin 1)]]
    ∃ t, runHistory refArgs (fun _ => .min) hist = some t ∧ ∃ b, (t 0).best = some b ∧
      ∃ r ∈ hist.flatten, Better .min (r.evals 0) (b.evals 0) := by
  refine ⟨_, rfl, ⟨0, fun _ => .fin 5⟩, rfl, ⟨2, fun _ => .fin 1⟩, by simp, rfl⟩

/-- If the first evaluated batch of a single-objective problem contains a NaN, `evaluate` itself raises AttributeError. -/
theorem C11_first_batch_with_nan_raises {A : Args K} (hA : ArgSpec A) (senses : Fin 1 → Sense) (batch : List (Row V K 1))
    (hnan : ∃ r ∈ batch, (r.evals 0).isNan = true) :
    (getBestAndWorst A senses none batch).result = .error .attributeError := by
  have hne : batch ≠ [] := by rintro rfl; obtain ⟨r, hr, _⟩ := hnan; simp at hr
  have h := C11_violated_by_nan hA (senses 0) 0 batch (initTrack (senses 0)) hnan
  simp only [getBestAndWorst, if_neg hne, Option.getD_none]
  have e : (⟨0, by omega⟩ : Fin 1) = 0 := rfl
  simp only [e, h]
  cases senses 0 <;> rfl

/-! ### C12 -/

section compare
variable {K : Type} [Field K] [LinearOrder K] [IsStrictOrderedRing K]

theorem isBetter_iff (s : Sense) (a b : Flt K) : isBetter s a b = true ↔ Better s a b := by
  cases s <;> simp only [isBetter, compareSolutions, Flt.sub_pos_iff, Better]

theorem isWorse_iff (s : Sense) (a b : Flt K) : isWorse s a b = true ↔ Better s b a := by
  cases s <;> simp only [isWorse, compareSolutions, Flt.sub_neg_iff, Better]

/-- **C12.** For either sense and all evaluations (infinities and NaN included): `is_better` means a strictly better evaluation, it is
irreflexive, asymmetric and transitive, `is_worse` is its converse, and the sign of `compare_solutions` agrees with
both. -/
theorem C12_comparison_strict_order (s : Sense) (a b c : Flt K) :
    (isBetter s a b = true ↔ Better s a b) ∧
    isBetter s a a = false ∧
    (isBetter s a b = true → isBetter s b a = false) ∧
    (isBetter s a b = true → isBetter s b c = true → isBetter s a c = true) ∧
    (isWorse s a b = isBetter s b a) ∧
    (isBetter s a b = true ↔ Flt.lt (.fin 0) (compareSolutions s a b) = true) ∧
    (isWorse s a b = true ↔ Flt.lt (compareSolutions s a b) (.fin 0) = true) := by
  refine ⟨isBetter_iff s a b, ?_, ?_, ?_, ?_, Iff.rfl, Iff.rfl⟩
  · rw [Bool.eq_false_iff]; intro h; exact better_irrefl _ _ ((isBetter_iff _ _ _).mp h)
  · intro h; rw [Bool.eq_false_iff]; intro h'
    exact better_asymm ((isBetter_iff _ _ _).mp h) ((isBetter_iff _ _ _).mp h')
  · intro h1 h2
    rw [isBetter_iff] at *
    cases s
    · exact Flt.lt_trans h1 h2
    · exact Flt.lt_trans h2 h1
  · rw [Bool.eq_iff_iff, isWorse_iff, isBetter_iff]

/-- **C12 (ties).** Of two finite evaluations, exactly one of better, worse, equal holds, and equality is a tie. -/
theorem C12_trichotomy (s : Sense) (x y : K) :
    (compareSolutions s (.fin x) (.fin y) = .fin 0 ↔ x = y) ∧
    (isBetter s (.fin x) (.fin y) = true ∨ isWorse s (.fin x) (.fin y) = true ∨ x = y) := by
  constructor
  · cases s <;> simp [compareSolutions, Flt.sub, sub_eq_zero, eq_comm]
  · rw [isBetter_iff, isWorse_iff]
    rcases lt_trichotomy x y with h | h | h <;> cases s <;> simp [Better, Flt.lt, h]

end compare

example : isBetter (K := ℚ) .min (.fin 1) (.fin 2) = true ∧ isBetter (K := ℚ) .max (.fin 1) (.fin 2) = false ∧
    isBetter (K := ℚ) .max .pinf (.fin 2) = true ∧ isBetter (K := ℚ) .max .nan (.fin 2) = false := by decide +kernel

end EvoTorch.BestWorst
