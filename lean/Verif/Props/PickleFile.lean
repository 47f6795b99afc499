import Mathlib.Data.List.Nodup
import Mathlib.Data.Nat.Digits.Lemmas
import Verif.Model.PickleFile
import Verif.Props.Hook
/-!
C132: what the pickle files of a `PicklingLogger` are called and what is in them.
-/
namespace EvoTorch.PickleFile
open EvoTorch.Hook (Dict dictGet dictSet dictGet_set)

/-! ### Specification -/

/-- What a value in the status is about: a solution stands for its values. -/
def content : Val → Val
  | .solution v => content v
  | v => v

/-- `x` is what is to be saved for `v`: a tensor on the cpu with the same values, ordinary, with its own storage, a storage that did not exist before; or the very
same object if `v` is no tensor. -/
def Saved (old : Nat) (v x : Val) : Prop :=
  (∀ t, content v = .tensor t → ∃ s, old ≤ s ∧ x = .tensor ⟨t.data, true, false, s⟩) ∧ (∀ o, content v = .other o → x = .other o)

/-- Names of what is added besides the items asked for. -/
def extra : List String := ["obs_stats", "policy", "beginning_time", "now", "elapsed"]

/-! ### Lemmas -/

theorem saved_asCpu (old s : Nat) (h : old ≤ s) (v : Val) : Saved old v (asCpuTensor s v) := by
  induction v with
  | solution v ih => simpa [Saved, content, asCpuTensor] using ih
  | tensor t => simp [Saved, content, asCpuTensor]; exact h
  | other o => simp [Saved, content, asCpuTensor]

theorem collect_get (status : Dict String Val) (old : Nat) (ks : List String) (s : Nat) (hs : old ≤ s) (d : Dict String Item) (k : String) :
    (∀ v, k ∈ ks → dictGet status k = some v → ∃ x, dictGet (collectItems status ks s d) k = some (.val x) ∧ Saved old v x) ∧
      ((k ∉ ks ∨ dictGet status k = none) → dictGet (collectItems status ks s d) k = dictGet d k) := by
  induction ks generalizing s d with
  | nil => simp [collectItems]
  | cons a ks ih =>
    unfold collectItems
    cases ha : dictGet status a with
    | none =>
      obtain ⟨h1, h2⟩ := ih s hs d
      refine ⟨fun v hv hk => ?_, fun h => ?_⟩
      · rcases List.mem_cons.1 hv with rfl | hv
        · rw [ha] at hk; cases hk
        · exact h1 v hv hk
      · refine h2 ?_
        rcases h with h | h
        · exact .inl (fun hm => h (List.mem_cons_of_mem _ hm))
        · exact .inr h
    | some va =>
      obtain ⟨h1, h2⟩ := ih (s + 1) (by omega) (dictSet d a (.val (asCpuTensor s va)))
      refine ⟨fun v hv hk => ?_, fun h => ?_⟩
      · by_cases hm : k ∈ ks
        · exact h1 v hm hk
        · rcases List.mem_cons.1 hv with rfl | hv
          · rw [ha] at hk
            cases hk
            exact ⟨_, by simp only [h2 (.inl hm), dictGet_set, if_pos], saved_asCpu old s hs va⟩
          · exact absurd hv hm
      · have hne : a ≠ k := by
          rintro rfl
          rcases h with h | h
          · exact h List.mem_cons_self
          · rw [ha] at h; cases h
        have : dictGet (collectItems status ks (s + 1) (dictSet d a (.val (asCpuTensor s va)))) k = _ := h2 (by
          rcases h with h | h
          · exact .inl (fun hm => h (List.mem_cons_of_mem _ hm))
          · exact .inr h)
        rw [this, dictGet_set, if_neg hne]

/-- Tensors collected in one save have different storages. -/
theorem collect_storage (status : Dict String Val) (ks : List String) (s : Nat) (d : Dict String Item)
    (hd : ∀ k t, dictGet d k = some (.val (.tensor t)) → t.storage < s)
    (hu : ∀ k k' t t', dictGet d k = some (.val (.tensor t)) → dictGet d k' = some (.val (.tensor t')) → t.storage = t'.storage → k = k') :
    (∀ k t, dictGet (collectItems status ks s d) k = some (.val (.tensor t)) → t.storage < s + ks.length) ∧
      ∀ k k' t t', dictGet (collectItems status ks s d) k = some (.val (.tensor t)) → dictGet (collectItems status ks s d) k' = some (.val (.tensor t')) →
        t.storage = t'.storage → k = k' := by
  induction ks generalizing s d with
  | nil => exact ⟨fun k t h => by simpa using hd k t h, hu⟩
  | cons a ks ih =>
    unfold collectItems
    cases ha : dictGet status a with
    | none =>
      obtain ⟨h1, h2⟩ := ih s d hd hu
      exact ⟨fun k t h => by have := h1 k t h; simp only [List.length_cons]; omega, h2⟩
    | some va =>
      have hst : ∀ t, asCpuTensor s va = .tensor t → t.storage = s := by
        intro t
        induction va with
        | solution v ih => intro h; exact ih' v t h
        | tensor u => intro h; cases h; rfl
        | other o => intro h; cases h
      obtain ⟨h1, h2⟩ := ih (s + 1) (dictSet d a (.val (asCpuTensor s va)))
        (by
          intro k t h
          rw [dictGet_set] at h
          split at h
          · have := hst t (by simpa using h); omega
          · have := hd k t h; omega)
        (by
          intro k k' t t' h h' e
          rw [dictGet_set] at h h'
          split at h <;> split at h'
          · rename_i e1 e2; exact e1.symm.trans e2
          · have e1 := hst t (by simpa using h); have := hd k' t' h'; omega
          · have e1 := hst t' (by simpa using h'); have := hd k t h; omega
          · exact hu k k' t t' h h' e)
      exact ⟨fun k t h => by have := h1 k t h; simp only [List.length_cons]; omega, h2⟩
where
  ih' {s : Nat} : ∀ (v : Val) (t : Ten), asCpuTensor s (.solution v) = .tensor t → t.storage = s
    | .solution v, t, h => ih' v t h
    | .tensor u, t, h => by cases h; rfl
    | .other o, t, h => by cases h

/-! ### C132: what is in a file -/

theorem save_ok (c : Cfg) (sr : Searcher) (fname : Option Name) (now : Int) (wr : Writing) (w : World) (r : Option Name)
    (h : (save c (some sr) fname now wr w).result = .ok r) :
    ∃ d, prepare c sr now w = .ok d ∧ wr = .succeeds ∧ r = some (fileName c sr fname) ∧
      (save c (some sr) fname now wr w).state =
        { files := setFile w.files (fileName c sr fname) (.complete d), lastGeneration := some sr.stepCount, lastFileName := some (fileName c sr fname),
          nextStorage := w.nextStorage + c.items.length } := by
  unfold save at h ⊢
  cases hp : prepare c sr now w with
  | error e => simp [hp] at h
  | ok d =>
    cases wr with
    | openFails e => simp [hp] at h
    | dumpFails e => simp [hp] at h
    | succeeds => simp [hp] at h ⊢; exact h.symm

/-- What `prepare` puts together. -/
theorem prepare_ok (c : Cfg) (sr : Searcher) (now : Int) (w : World) (d : Dict String Item) (h : prepare c sr now w = .ok d) :
    (∀ k, k ∉ extra → dictGet d k = dictGet (collectItems sr.status c.items w.nextStorage []) k) ∧
    (∀ s, sr.obsNorm = some (true, s) → ∃ s', dictGet d "obs_stats" = some (.stats s') ∧ s.toCpu = .ok s') ∧
    ((∀ s, sr.obsNorm ≠ some (true, s)) → dictGet d "obs_stats" = dictGet (collectItems sr.status c.items w.nextStorage []) "obs_stats") ∧
    (∀ f, sr.toPolicy = some f → ∃ k v p, policyKey c sr = .ok k ∧ dictGet sr.status k = some v ∧ f v = .ok p ∧ dictGet d "policy" = some (.policy p.toCpu) ∧
      ∀ t, sr.firstStep = some t → dictGet d "beginning_time" = some (.time t) ∧ dictGet d "now" = some (.time now) ∧ dictGet d "elapsed" = some (.time (now - t))) ∧
    (sr.toPolicy = none → ∀ k ∈ ["policy", "beginning_time", "now", "elapsed"], dictGet d k = dictGet (collectItems sr.status c.items w.nextStorage []) k) := by
  unfold prepare at h
  generalize collectItems sr.status c.items w.nextStorage [] = d0 at h ⊢
  cases ha : addStats sr d0 with
  | error e => rw [ha] at h; cases h
  | ok d1 =>
    rw [ha] at h
    simp only at h
    have hstats : (∀ k, k ≠ "obs_stats" → dictGet d1 k = dictGet d0 k) ∧
        (∀ s, sr.obsNorm = some (true, s) → ∃ s', dictGet d1 "obs_stats" = some (.stats s') ∧ s.toCpu = .ok s') ∧
        ((∀ s, sr.obsNorm ≠ some (true, s)) → dictGet d1 "obs_stats" = dictGet d0 "obs_stats") := by
      unfold addStats at ha
      split at ha
      · rename_i s hs
        cases ht : s.toCpu with
        | error e => rw [ht] at ha; cases ha
        | ok s' =>
          rw [ht] at ha
          cases ha
          refine ⟨fun k hk => ?_, fun s2 h2 => ?_, fun hno => absurd hs (hno s)⟩
          · rw [dictGet_set, if_neg (Ne.symm hk)]
          · rw [hs] at h2
            cases h2
            exact ⟨s', by rw [dictGet_set, if_pos rfl], ht⟩
      · rename_i hno
        cases ha
        exact ⟨fun _ _ => rfl, fun s hs => absurd hs (hno s), fun _ => rfl⟩
    have hpol : (∀ k, k ∉ ["policy", "beginning_time", "now", "elapsed"] → dictGet d k = dictGet d1 k) ∧
        (∀ f, sr.toPolicy = some f → ∃ k v p, policyKey c sr = .ok k ∧ dictGet sr.status k = some v ∧ f v = .ok p ∧ dictGet d "policy" = some (.policy p.toCpu) ∧
          ∀ t, sr.firstStep = some t → dictGet d "beginning_time" = some (.time t) ∧ dictGet d "now" = some (.time now) ∧
            dictGet d "elapsed" = some (.time (now - t))) ∧
        (sr.toPolicy = none → d = d1) := by
      unfold addPolicy at h
      cases hf : sr.toPolicy with
      | none => rw [hf] at h; cases h; exact ⟨fun _ _ => rfl, fun f h => (by cases h), fun _ => rfl⟩
      | some f =>
        rw [hf] at h
        simp only at h
        cases hk : policyKey c sr with
        | error e => rw [hk] at h; cases h
        | ok k =>
          rw [hk] at h
          simp only at h
          cases hv : dictGet sr.status k with
          | none => rw [hv] at h; cases h
          | some v =>
            rw [hv] at h
            simp only at h
            cases hp : f v with
            | error e => rw [hp] at h; cases h
            | ok p =>
              rw [hp] at h
              cases h
              refine ⟨fun k' hk' => ?_, fun f' hf' => ?_, fun hn => by cases hn⟩
              · simp only [List.mem_cons, not_or] at hk'
                obtain ⟨n1, n2, n3, n4, -⟩ := hk'
                unfold addTimes
                split
                · rw [dictGet_set, if_neg (Ne.symm n1)]
                · simp only [dictGet_set, if_neg (Ne.symm n1), if_neg (Ne.symm n2), if_neg (Ne.symm n3), if_neg (Ne.symm n4)]
              · cases hf'
                refine ⟨k, v, p, rfl, hv, hp, ?_, fun t ht => ?_⟩
                · unfold addTimes
                  split <;> simp [dictGet_set]
                · unfold addTimes
                  rw [ht]
                  simp [dictGet_set]
    obtain ⟨a1, a2, a3⟩ := hstats
    obtain ⟨b1, b2, b3⟩ := hpol
    have hobs : dictGet d "obs_stats" = dictGet d1 "obs_stats" := b1 _ (by decide)
    refine ⟨fun k hk => ?_, fun s hs => ?_, fun hno => ?_, b2, fun hn k hk => ?_⟩
    · simp only [extra, List.mem_cons, not_or] at hk
      rw [b1 k (by simp [hk]), a1 k hk.1]
    · rw [hobs]; exact a2 s hs
    · rw [hobs]; exact a3 hno
    · rw [b3 hn]
      refine a1 k ?_
      rintro rfl
      simp at hk

/-- A save that returns has written one complete file, under the name it returns and reports as the last one. `unpickle_last_file` gives back what was written: for
each item asked for that is in the status, a copy of it on the cpu that shares no storage with anything that existed before; nothing for any other name, except for
the observation statistics, the policy and the times. No other file is touched. -/
theorem C132_contents (c : Cfg) (sr : Searcher) (fname : Option Name) (now : Int) (wr : Writing) (w : World) (r : Option Name)
    (h : (save c (some sr) fname now wr w).result = .ok r) :
    let w' := (save c (some sr) fname now wr w).state
    ∃ n d, r = some n ∧ w'.files n = some (.complete d) ∧ w'.lastFileName = some n ∧ w'.lastGeneration = some sr.stepCount ∧ unpickleLast w' = .ok d ∧
      (∀ m, m ≠ n → w'.files m = w.files m) ∧
      (∀ k v, k ∉ extra → k ∈ c.items → dictGet sr.status k = some v → ∃ x, dictGet d k = some (.val x) ∧ Saved w.nextStorage v x) ∧
      (∀ k, k ∉ extra → (k ∉ c.items ∨ dictGet sr.status k = none) → dictGet d k = none) := by
  obtain ⟨d, hp, rfl, rfl, hst⟩ := save_ok c sr fname now wr w r h
  obtain ⟨h1, -⟩ := prepare_ok c sr now w d hp
  intro w'
  have hw : w' = _ := hst
  refine ⟨_, d, rfl, ?_, ?_, ?_, ?_, fun m hm => ?_, fun k v hk hi hv => ?_, fun k hk hno => ?_⟩
  · simp [hw, setFile]
  · rw [hw]
  · rw [hw]
  · simp [hw, unpickleLast, setFile]
  · simp [hw, setFile, hm]
  · rw [h1 k hk]
    exact (collect_get sr.status w.nextStorage c.items w.nextStorage (Nat.le_refl _) [] k).1 v hi hv
  · rw [h1 k hk, (collect_get sr.status w.nextStorage c.items w.nextStorage (Nat.le_refl _) [] k).2 hno]
    rfl

/-- Two tensors in one file never share a storage. -/
theorem C132_unshared (c : Cfg) (sr : Searcher) (fname : Option Name) (now : Int) (wr : Writing) (w : World) (r : Option Name)
    (h : (save c (some sr) fname now wr w).result = .ok r) (d : Dict String Item)
    (hd : unpickleLast (save c (some sr) fname now wr w).state = .ok d) (k k' : String) (hk : k ∉ extra) (hk' : k' ∉ extra) (t t' : Ten)
    (ht : dictGet d k = some (.val (.tensor t))) (ht' : dictGet d k' = some (.val (.tensor t'))) (hs : t.storage = t'.storage) : k = k' := by
  obtain ⟨d2, hp, rfl, rfl, hst⟩ := save_ok c sr fname now wr w r h
  rw [hst] at hd
  have : d2 = d := by simpa [unpickleLast, setFile] using hd
  subst this
  obtain ⟨h1, -⟩ := prepare_ok c sr now w d2 hp
  rw [h1 k hk] at ht
  rw [h1 k' hk'] at ht'
  exact (collect_storage sr.status c.items w.nextStorage [] (by simp [dictGet]) (by simp [dictGet])).2 k k' t t' ht ht' hs

/-- Observation statistics: they are in the file, on the cpu, with the same counts and sums, exactly if the problem normalizes observations. -/
theorem C132_stats (c : Cfg) (sr : Searcher) (fname : Option Name) (now : Int) (wr : Writing) (w : World) (r : Option Name)
    (hi : "obs_stats" ∉ c.items)
    (h : (save c (some sr) fname now wr w).result = .ok r) (d : Dict String Item)
    (hd : unpickleLast (save c (some sr) fname now wr w).state = .ok d) :
    (∀ s, sr.obsNorm = some (true, s) → ∃ s', dictGet d "obs_stats" = some (.stats s') ∧ s'.count = s.count ∧ s'.sum = s.sum ∧
      s'.runningNorm = s.runningNorm ∧ (s.runningNorm = true → s'.onCpu = true)) ∧
    ((∀ s, sr.obsNorm ≠ some (true, s)) → dictGet d "obs_stats" = none) := by
  obtain ⟨d2, hp, rfl, rfl, hst⟩ := save_ok c sr fname now wr w r h
  rw [hst] at hd
  have : d2 = d := by simpa [unpickleLast, setFile] using hd
  subst this
  obtain ⟨-, h2, h3, -⟩ := prepare_ok c sr now w d2 hp
  refine ⟨fun s hs => ?_, fun hno => ?_⟩
  · obtain ⟨s', g, ht⟩ := h2 s hs
    refine ⟨s', g, ?_⟩
    unfold Stats.toCpu at ht
    split at ht
    · rename_i hb; cases ht; simp [hb]
    · split at ht
      · rename_i hc; cases ht; simp [hc]
      · split at ht
        · cases ht
        · cases ht; simp
  · rw [h3 hno, (collect_get sr.status w.nextStorage c.items w.nextStorage (Nat.le_refl _) [] _).2 (.inl hi)]
    rfl

/-- The policy: made from the status item asked for, or else from the center, or else from the best of the population; on the cpu if it is a module; and with it the
time of the first step, the present time and their difference. -/
theorem C132_policy (c : Cfg) (sr : Searcher) (fname : Option Name) (now : Int) (wr : Writing) (w : World) (r : Option Name) (f : Val → Except PyErr Policy)
    (hf : sr.toPolicy = some f)
    (h : (save c (some sr) fname now wr w).result = .ok r) (d : Dict String Item)
    (hd : unpickleLast (save c (some sr) fname now wr w).state = .ok d) :
    (∃ k v p, dictGet sr.status k = some v ∧ f v = .ok p ∧
      dictGet d "policy" = some (.policy { p with onCpu := p.onCpu || p.isModule }) ∧
      (∀ k', c.makePolicyFrom = some k' → k = k') ∧
      (c.makePolicyFrom = none → k = if (dictGet sr.status "center").isSome then "center" else "pop_best")) ∧
    (∀ t, sr.firstStep = some t →
      dictGet d "beginning_time" = some (.time t) ∧ dictGet d "now" = some (.time now) ∧ dictGet d "elapsed" = some (.time (now - t))) := by
  obtain ⟨d2, hp, rfl, rfl, hst⟩ := save_ok c sr fname now wr w r h
  rw [hst] at hd
  have : d2 = d := by simpa [unpickleLast, setFile] using hd
  subst this
  obtain ⟨-, -, -, h4, -⟩ := prepare_ok c sr now w d2 hp
  obtain ⟨k, v, p, hk, hv, hfv, hg, ht⟩ := h4 f hf
  refine ⟨⟨k, v, p, hv, hfv, ?_, fun k' hk' => ?_, fun hn => ?_⟩, ht⟩
  · rw [hg]
    rcases p with ⟨a, b, e⟩
    cases a <;> cases b <;> simp [Policy.toCpu]
  · rw [policyKey, hk'] at hk
    cases hk
    rfl
  · rw [policyKey, hn] at hk
    simp only at hk
    split at hk
    · rename_i hc; rw [if_pos hc]; cases hk; rfl
    · rename_i hc
      rw [if_neg hc]
      split at hk
      · cases hk; rfl
      · cases hk

/-- Without a policy maker there is no policy in the file, and no times either. -/
theorem C132_no_policy (c : Cfg) (sr : Searcher) (fname : Option Name) (now : Int) (wr : Writing) (w : World) (r : Option Name) (hf : sr.toPolicy = none)
    (h : (save c (some sr) fname now wr w).result = .ok r) (d : Dict String Item)
    (hd : unpickleLast (save c (some sr) fname now wr w).state = .ok d) (k : String) (hk : k ∈ ["policy", "beginning_time", "now", "elapsed"])
    (hi : k ∉ c.items) : dictGet d k = none := by
  obtain ⟨d2, hp, rfl, rfl, hst⟩ := save_ok c sr fname now wr w r h
  rw [hst] at hd
  have : d2 = d := by simpa [unpickleLast, setFile] using hd
  subst this
  obtain ⟨-, -, -, -, h5⟩ := prepare_ok c sr now w d2 hp
  rw [h5 hf k hk, (collect_get sr.status w.nextStorage c.items w.nextStorage (Nat.le_refl _) [] _).2 (.inl hi)]
  rfl

/-! ### C132: when a save fails -/

/-- A save that raises leaves the last generation, the last file name and every other file as they were; unless it was writing that failed, it leaves the file itself
as it was too. A logger whose search algorithm is gone does nothing. -/
theorem C132_failed (c : Cfg) (sr : Searcher) (fname : Option Name) (now : Int) (wr : Writing) (w : World) (e : PyErr)
    (h : (save c (some sr) fname now wr w).result = .error e) :
    let w' := (save c (some sr) fname now wr w).state
    w'.lastGeneration = w.lastGeneration ∧ w'.lastFileName = w.lastFileName ∧ (∀ m, m ≠ fileName c sr fname → w'.files m = w.files m) ∧
      ((∀ e', wr ≠ .dumpFails e') → w'.files = w.files) := by
  intro w'
  have hw : w' = (save c (some sr) fname now wr w).state := rfl
  unfold save at hw h
  cases hp : prepare c sr now w with
  | error e' => simp [hp] at hw; simp [hw]
  | ok d =>
    cases wr with
    | openFails e' => simp [hp] at hw; simp [hw]
    | dumpFails e' =>
      simp [hp] at hw
      rw [hw]
      refine ⟨rfl, rfl, fun m hm => by simp [setFile, hm], fun hno => absurd rfl (hno e')⟩
    | succeeds => simp [hp] at h

theorem C132_gone (c : Cfg) (fname : Option Name) (now : Int) (wr : Writing) (w : World) :
    (save c none fname now wr w).result = .ok none ∧ (save c none fname now wr w).state = w := ⟨rfl, rfl⟩

/-- Nothing says which item to make a policy from, and the status has neither a center nor a best of the population: `ValueError`. The item named is not in the
status: `KeyError`. In both cases there is no file. -/
theorem C132_no_key (c : Cfg) (sr : Searcher) (fname : Option Name) (now : Int) (wr : Writing) (w : World) (hf : sr.toPolicy.isSome)
    (hs : ∀ s, sr.obsNorm ≠ some (true, s)) :
    (c.makePolicyFrom = none → dictGet sr.status "center" = none → dictGet sr.status "pop_best" = none →
      (save c (some sr) fname now wr w).result = .error .valueError ∧ (save c (some sr) fname now wr w).state = w) ∧
    (∀ k, c.makePolicyFrom = some k → dictGet sr.status k = none →
      (save c (some sr) fname now wr w).result = .error .keyError ∧ (save c (some sr) fname now wr w).state = w) := by
  obtain ⟨f, hf⟩ := Option.isSome_iff_exists.1 hf
  have ha : ∀ d, addStats sr d = .ok d := by
    intro d
    unfold addStats
    split
    · rename_i s h; exact absurd h (hs s)
    · rfl
  refine ⟨fun h1 h2 h3 => ?_, fun k h1 h2 => ?_⟩
  · simp [save, prepare, ha, addPolicy, hf, policyKey, h1, h2, h3]
  · simp [save, prepare, ha, addPolicy, hf, policyKey, h1, h2]

/-! ### C132: names -/

theorem ofDigits_zfill (w : Int) (l : List Nat) : Nat.ofDigits 10 (zfill w l).reverse = Nat.ofDigits 10 l.reverse := by
  rw [zfill, List.reverse_append, List.reverse_replicate, Nat.ofDigits_append_replicate_zero]

theorem ofDigits_decimal (n : Nat) : Nat.ofDigits 10 (decimal n).reverse = n := by
  unfold decimal
  split
  · rename_i h; simp [h]
  · simp [Nat.ofDigits_digits]

theorem decimal_lt (n : Nat) : ∀ d ∈ decimal n, d < 10 := by
  unfold decimal
  split
  · simp
  · intro d hd
    exact Nat.digits_lt_base (by omega) (List.mem_reverse.1 hd)

theorem zfill_lt (w : Int) (n : Nat) : ∀ d ∈ zfill w (decimal n), d < 10 := by
  intro d hd
  rcases List.mem_append.1 hd with h | h
  · rw [(List.mem_replicate.1 h).2]; omega
  · exact decimal_lt n d h

theorem digitChar_lt_iff {a b : Nat} (ha : a < 10) (hb : b < 10) : digitChar a < digitChar b ↔ a < b := by
  have : ∀ a < 10, ∀ b < 10, (digitChar a < digitChar b ↔ a < b) := by decide
  exact this a ha b hb

theorem digitChar_inj {a b : Nat} (ha : a < 10) (hb : b < 10) (h : digitChar a = digitChar b) : a = b := by
  have : ∀ a < 10, ∀ b < 10, digitChar a = digitChar b → a = b := by decide
  exact this a ha b hb h

theorem map_digitChar_inj : ∀ {l l' : List Nat}, (∀ d ∈ l, d < 10) → (∀ d ∈ l', d < 10) → l.map digitChar = l'.map digitChar → l = l'
  | [], [], _, _, _ => rfl
  | [], _ :: _, _, _, h => by simp at h
  | _ :: _, [], _, _, h => by simp at h
  | a :: l, b :: l', h1, h2, h => by
    simp only [List.map_cons, List.cons.injEq] at h
    rw [digitChar_inj (h1 a (by simp)) (h2 b (by simp)) h.1,
      map_digitChar_inj (fun d hd => h1 d (by simp [hd])) (fun d hd => h2 d (by simp [hd])) h.2]

/-- Different generations have files of different names, whatever the padding. -/
theorem C132_names (pre : Name) (w w' : Int) (g g' : Nat) (h : autoName pre w g = autoName pre w' g') : g = g' := by
  unfold autoName at h
  have h1 := List.append_cancel_right h
  have h2 := List.append_cancel_left h1
  have h3 := map_digitChar_inj (zfill_lt w g) (zfill_lt w' g') h2
  have h4 : Nat.ofDigits 10 (zfill w (decimal g)).reverse = Nat.ofDigits 10 (zfill w' (decimal g')).reverse := by rw [h3]
  rwa [ofDigits_zfill, ofDigits_zfill, ofDigits_decimal, ofDigits_decimal] at h4

theorem decimal_length_le (w n : Nat) (hw : 1 ≤ w) (h : n < 10 ^ w) : (decimal n).length ≤ w := by
  unfold decimal
  split
  · simpa using hw
  · rw [List.length_reverse]
    exact Nat.digits_length_le_iff (by omega) n |>.2 h

/-- The number in a name has exactly as many digits as `zfill` says, as long as it fits. -/
theorem C132_width (w n : Nat) (hw : 1 ≤ w) (h : n < 10 ^ w) : (zfill w (decimal n)).length = w := by
  have := decimal_length_le w n hw h
  simp [zfill]
  omega

/-- Little-endian comparison read from the front of the big-endian list. -/
theorem lex_of_lt : ∀ (l l' : List Nat), l.length = l'.length → (∀ d ∈ l, d < 10) → (∀ d ∈ l', d < 10) →
    Nat.ofDigits 10 l.reverse < Nat.ofDigits 10 l'.reverse → ∀ t : List Char, List.Lex (· < ·) (l.map digitChar ++ t) (l'.map digitChar ++ t)
  | [], [], _, _, _, h, _ => by simp at h
  | [], _ :: _, h, _, _, _, _ => by simp at h
  | _ :: _, [], h, _, _, _, _ => by simp at h
  | a :: l, b :: l', hl, h1, h2, h, t => by
    have hlen : l.length = l'.length := by simpa using hl
    simp only [List.reverse_cons, Nat.ofDigits_append, Nat.ofDigits_singleton, List.length_reverse, hlen] at h
    have b1 : Nat.ofDigits 10 l'.reverse < 10 ^ l'.length := by
      have := Nat.ofDigits_lt_base_pow_length (b := 10) (l := l'.reverse) (by omega) (fun x hx => h2 x (by simp [List.mem_reverse.1 hx]))
      simpa using this
    simp only [List.map_cons, List.cons_append]
    rcases Nat.lt_trichotomy a b with hab | rfl | hab
    · exact .rel ((digitChar_lt_iff (h1 a (by simp)) (h2 b (by simp))).2 hab)
    · exact .cons (lex_of_lt l l' hlen (fun d hd => h1 d (by simp [hd])) (fun d hd => h2 d (by simp [hd])) (by omega) t)
    · exfalso
      have : 10 ^ l'.length * (b + 1) ≤ 10 ^ l'.length * a := Nat.mul_le_mul_left _ hab
      rw [Nat.mul_add, Nat.mul_one] at this
      omega

theorem lex_append_left (p : List Char) {l l' : List Char} (h : List.Lex (· < ·) l l') : List.Lex (· < ·) (p ++ l) (p ++ l') := by
  induction p with
  | nil => exact h
  | cons a p ih => exact .cons ih

/-- As long as the generation numbers fit into the padding, sorting the file names alphabetically sorts them by generation. -/
theorem C132_order (pre : Name) (w g g' : Nat) (hw : 1 ≤ w) (h : g < g') (hg' : g' < 10 ^ w) :
    List.Lex (· < ·) (autoName pre w g) (autoName pre w g') := by
  unfold autoName
  rw [List.append_assoc _ _ ".pickle".toList, List.append_assoc _ _ ".pickle".toList]
  refine lex_append_left _ (lex_of_lt _ _ ?_ (zfill_lt _ _) (zfill_lt _ _) ?_ _)
  · rw [C132_width w g hw (by omega), C132_width w g' hw hg']
  · rwa [ofDigits_zfill, ofDigits_zfill, ofDigits_decimal, ofDigits_decimal]

/-- Beyond it this is not so: generation 10 sorts before generation 9 with `zfill = 1`. -/
theorem C132_violated_order : ∃ (w g g' : Nat), g < g' ∧ List.Lex (· < ·) (autoName [] w g') (autoName [] w g) := by
  refine ⟨1, 9, 10, by omega, ?_⟩
  have h9 : autoName [] (1 : Nat) 9 = "_generation".toList ++ ('9' :: ".pickle".toList) := by decide +kernel
  have h10 : autoName [] (1 : Nat) 10 = "_generation".toList ++ ('1' :: '0' :: ".pickle".toList) := by decide +kernel
  rw [h9, h10]
  exact lex_append_left _ (.rel (by decide))

theorem pathJoin_inj (d b b' : Name) (hh : b.head? = b'.head?) (h : pathJoin d b = pathJoin d b') : b = b' := by
  unfold pathJoin at h
  rw [← hh] at h
  split at h
  · exact h
  · split at h
    · exact List.append_cancel_left h
    · have := List.append_cancel_left h
      simpa using this

theorem autoName_head (pre : Name) (w : Int) (g : Nat) : (autoName pre w g).head? = (pre ++ ['_']).head? := by
  cases pre <;> simp [autoName]

theorem withinDir_inj (c : Cfg) (g g' : Nat) (h : withinDir c (autoName c.pre c.zfill g) = withinDir c (autoName c.pre c.zfill g')) : g = g' := by
  unfold withinDir at h
  cases hd : c.directory with
  | none => rw [hd] at h; exact C132_names _ _ _ _ _ h
  | some d =>
    rw [hd] at h
    exact C132_names _ _ _ _ _ (pathJoin_inj d _ _ (by rw [autoName_head, autoName_head]) h)

/-- A relative name is looked up in the directory of the logger; an absolute one is not. -/
theorem C132_directory (c : Cfg) (sr : Searcher) (d n : Name) (hd : c.directory = some d) :
    (n.head? = some '/' → fileName c sr (some n) = n) ∧
    (n.head? ≠ some '/' → d ≠ [] → fileName c sr (some n) = (if d.getLast? = some '/' then d else d ++ ['/']) ++ n) := by
  refine ⟨fun h => by simp [fileName, withinDir, hd, pathJoin, h], fun h hne => ?_⟩
  simp only [fileName, withinDir, hd, pathJoin, h, hne, if_false, false_or]
  split <;> simp

/-! ### C132: histories -/

theorem save_keeps (c : Cfg) (ev : Event) (w : World) (n : Name) (hn : fileName c ev.searcher ev.fname ≠ n) :
    (save c (some ev.searcher) ev.fname ev.now ev.writing w).state.files n = w.files n := by
  cases h : (save c (some ev.searcher) ev.fname ev.now ev.writing w).result with
  | error e => exact (C132_failed c _ _ _ _ w e h).2.2.1 n (Ne.symm hn)
  | ok r =>
    obtain ⟨d, -, -, -, hst⟩ := save_ok c _ _ _ _ w r h
    rw [hst]
    simp [setFile, Ne.symm hn]

theorem runEvents_keeps (c : Cfg) (evs : List Event) (w : World) (n : Name) (hn : ∀ ev ∈ evs, fileName c ev.searcher ev.fname ≠ n) :
    (runEvents c evs w).files n = w.files n := by
  induction evs generalizing w with
  | nil => rfl
  | cons ev evs ih =>
    rw [runEvents, ih _ (fun e he => hn e (by simp [he])), save_keeps c ev w n (hn ev (by simp))]

/-- However many saves are made, at different generations, under generated names, and wherever any of them fails: each save that succeeded keeps its complete file,
with what it wrote. -/
theorem C132_history (c : Cfg) (evs : List Event) (w : World) (hauto : ∀ ev ∈ evs, ev.fname = none)
    (hgen : (evs.map fun ev => ev.searcher.stepCount).Nodup) (i : Nat) (hi : i < evs.length) (r : Option Name)
    (hok : (save c (some evs[i].searcher) none evs[i].now evs[i].writing (runEvents c (evs.take i) w)).result = .ok r) :
    ∃ n d, r = some n ∧ unpickleLast (save c (some evs[i].searcher) none evs[i].now evs[i].writing (runEvents c (evs.take i) w)).state = .ok d ∧
      (runEvents c evs w).files n = some (.complete d) := by
  induction evs generalizing w i with
  | nil => simp at hi
  | cons ev evs ih =>
    obtain ⟨hnot, hnd⟩ := List.nodup_cons.1 (show (ev.searcher.stepCount :: evs.map fun ev => ev.searcher.stepCount).Nodup from hgen)
    cases i with
    | zero =>
      simp only [List.take_zero, runEvents, List.getElem_cons_zero] at hok ⊢
      obtain ⟨d, -, hwr, rfl, hst⟩ := save_ok c _ _ _ _ w r hok
      rw [hauto ev (by simp)]
      refine ⟨_, d, rfl, by rw [hst]; simp [unpickleLast, setFile], ?_⟩
      rw [runEvents_keeps, hst]
      · simp [setFile]
      · intro e he heq
        rw [hauto e (by simp [he])] at heq
        exact hnot (by rw [← withinDir_inj c _ _ heq]; exact List.mem_map_of_mem he)
    | succ i =>
      simp only [List.take_succ_cons, runEvents, List.getElem_cons_succ] at hok ⊢
      exact ih _ (fun e he => hauto e (by simp [he])) hnd i (by simpa using hi) hok

/-! ### C132: what fails -/

def emptyWorld : World := ⟨fun _ => none, none, none, 0⟩
def plain : Searcher := ⟨[("center", .tensor ⟨[1, 2], false, true, 7⟩), ("iter", .other 3)], 12, some 100, none, none⟩
def cfg : Cfg := ⟨["center", "best", "iter"], none, "run".toList, some "out".toList, 6⟩

example : (save cfg (some plain) none 160 .succeeds emptyWorld).result = .ok (some "out/run_generation000012.pickle".toList) := by decide +kernel
example : unpickleLast (save cfg (some plain) none 160 .succeeds emptyWorld).state =
    .ok [("center", .val (.tensor ⟨[1, 2], true, false, 0⟩)), ("iter", .val (.other 3))] := by decide +kernel
example : (save cfg (some { plain with toPolicy := some fun v => .ok ⟨true, false, if v = .other 3 then 0 else 5⟩ }) none 160 .succeeds emptyWorld).state.lastGeneration =
    some 12 := by decide +kernel
example : unpickleLast (save cfg (some { plain with toPolicy := some fun v => .ok ⟨true, false, if v = .other 3 then 0 else 5⟩, obsNorm := some (true, ⟨true, false, 2, [8]⟩) })
    none 160 .succeeds emptyWorld).state =
    .ok [("center", .val (.tensor ⟨[1, 2], true, false, 0⟩)), ("iter", .val (.other 3)), ("obs_stats", .stats ⟨true, true, 2, [8]⟩), ("policy", .policy ⟨true, true, 5⟩),
      ("beginning_time", .time 100), ("now", .time 160), ("elapsed", .time 60)] := by decide +kernel

/-- Saving again under the same name and failing while writing destroys the file that was there; the logger goes on reporting it as its last file, and it cannot be
read. -/
theorem C132_violated_overwrite (c : Cfg) (sr sr' : Searcher) (n : Name) (now now' : Int) (w : World) (r : Option Name) (e : PyErr)
    (h : (save c (some sr) (some n) now .succeeds w).result = .ok r)
    (hp : ∃ d, prepare c sr' now' (save c (some sr) (some n) now .succeeds w).state = .ok d) :
    let w1 := (save c (some sr) (some n) now .succeeds w).state
    let w2 := (save c (some sr') (some n) now' (.dumpFails e) w1).state
    (∃ d, unpickleLast w1 = .ok d) ∧ w2.lastFileName = w1.lastFileName ∧ unpickleLast w2 = .error .otherError := by
  obtain ⟨d, hd⟩ := hp
  obtain ⟨d1, -, -, -, hst⟩ := save_ok c _ _ _ _ w r h
  intro w1 w2
  have hw1 : w1 = _ := hst
  have hw2 : w2 = { w1 with files := setFile w1.files (fileName c sr' (some n)) .broken } := by
    show (save c (some sr') (some n) now' (.dumpFails e) w1).state = _
    have hd' : prepare c sr' now' w1 = .ok d := hd
    simp only [save, hd']
  have hname : fileName c sr' (some n) = fileName c sr (some n) := rfl
  refine ⟨⟨d1, ?_⟩, ?_, ?_⟩
  · rw [hw1]; simp [unpickleLast, setFile]
  · rw [hw2]
  · rw [hw2, hw1, hname]; simp [unpickleLast, setFile]

example : ∃ d, prepare cfg plain 161 (save cfg (some plain) (some "a".toList) 160 .succeeds emptyWorld).state = .ok d :=
  ⟨_, rfl⟩

/-- With observation normalization on another device than the cpu, and no observation made yet, nothing can be saved: `AttributeError`. -/
theorem C132_violated_stats (c : Cfg) (sr : Searcher) (s : Stats) (hs : sr.obsNorm = some (true, s)) (h1 : s.runningNorm = true) (h2 : s.onCpu = false) (h3 : s.count = 0)
    (fname : Option Name) (now : Int) (wr : Writing) (w : World) :
    (save c (some sr) fname now wr w).result = .error .attributeError ∧ (save c (some sr) fname now wr w).state = w := by
  simp [save, prepare, addStats, hs, Stats.toCpu, h1, h2, h3]

/-- The default prefix separates problem, time and process; a given one is used as it is. One item may be given as a string. -/
theorem C132_prefix (prob now pid p : Name) (s : String) (l : List String) :
    prefixOf none prob now pid = prob ++ ['_'] ++ now ++ ['_'] ++ pid ∧ prefixOf (some p) prob now pid = p ∧
      (Items.one s).toList = [s] ∧ (Items.many l).toList = l := by
  simp [prefixOf, Items.toList]

end EvoTorch.PickleFile
