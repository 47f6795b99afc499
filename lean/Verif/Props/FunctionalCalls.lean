import Verif.Model.FunctionalCalls
import Verif.Props.DistributionObjects
import Verif.Props.ExpectsNdim
import Mathlib.Data.List.Basic
import Mathlib.Data.List.Nodup
import Mathlib.Data.List.Perm.Subperm
/-!
C110: calls of functional samplers and gradient estimators.
-/
namespace EvoTorch.FunctionalCalls
open EvoTorch EvoTorch.DistributionObjects

variable {V : Type}

/-! ### Positions -/

theorem posOf_none (required : List String) (k : String) : posOf required k = none ↔ k ∉ required := by
  induction required with
  | nil => simp [posOf]
  | cons r rs ih =>
    unfold posOf
    cases h : posOf rs k with
    | some i =>
      have : k ∈ rs := by
        by_contra hn
        rw [ih.2 hn] at h
        cases h
      simp [this]
    | none =>
      have : k ∉ rs := ih.1 h
      by_cases e : r = k
      · simp [e]
      · simp [e, this, Ne.symm e]

theorem posOf_some (required : List String) (hn : required.Nodup) (k : String) (i : ℕ) : posOf required k = some i ↔ required[i]? = some k := by
  induction required generalizing i with
  | nil => simp [posOf]
  | cons r rs ih =>
    obtain ⟨h1, h2⟩ := List.nodup_cons.1 hn
    unfold posOf
    cases h : posOf rs k with
    | some j =>
      have hj := (ih h2 j).1 h
      have hk : k ∈ rs := List.mem_of_getElem? hj
      cases i with
      | zero =>
        simp only [Option.some.injEq, Nat.add_eq_zero_iff, one_ne_zero, and_false, List.getElem?_cons_zero, false_iff]
        rintro rfl
        exact h1 hk
      | succ i =>
        simp only [Option.some.injEq, Nat.add_right_cancel_iff, List.getElem?_cons_succ]
        rw [← ih h2 i, h]
        simp
    | none =>
      have hk : k ∉ rs := (posOf_none rs k).1 h
      cases i with
      | zero => simp
      | succ i =>
        simp only [List.getElem?_cons_succ]
        constructor
        · intro hh
          split at hh <;> cases hh
        · intro hh
          exact absurd (List.mem_of_getElem? hh) hk

/-! ### Keyword arguments -/

theorem fillKw_length (required : List String) (kw : List (String × V)) (acc out : List (Option V)) (h : fillKw required kw acc = .ok out) : out.length = acc.length := by
  induction kw generalizing acc with
  | nil => cases h; rfl
  | cons p kw ih =>
    obtain ⟨k, v⟩ := p
    unfold fillKw at h
    split at h
    · cases h
    · have := ih _ h
      simpa using this

theorem fillKw_ok_iff (required : List String) (kw : List (String × V)) (acc : List (Option V)) :
    (∃ out, fillKw required kw acc = .ok out) ↔ ∀ p ∈ kw, p.1 ∈ required := by
  induction kw generalizing acc with
  | nil => simp [fillKw]
  | cons p kw ih =>
    obtain ⟨k, v⟩ := p
    unfold fillKw
    cases h : posOf required k with
    | none =>
      have := (posOf_none required k).1 h
      simp [this]
    | some i =>
      have : k ∈ required := by
        by_contra hn
        rw [(posOf_none required k).2 hn] at h
        cases h
      simp [this, ih]

theorem fillKw_error (required : List String) (kw : List (String × V)) (acc : List (Option V)) (e : PyErr) (h : fillKw required kw acc = .error e) : e = .keyError := by
  induction kw generalizing acc with
  | nil => cases h
  | cons p kw ih =>
    obtain ⟨k, v⟩ := p
    unfold fillKw at h
    split at h
    · cases h
      rfl
    · exact ih _ h

theorem fillKw_get (required : List String) (hn : required.Nodup) (kw : List (String × V)) (hk : (kw.map (·.1)).Nodup) (acc out : List (Option V)) (hl : acc.length = required.length)
    (h : fillKw required kw acc = .ok out) (i : ℕ) (name : String) (hi : required[i]? = some name) :
    out[i]? = (match kw.lookup name with | some v => some (some v) | none => acc[i]?) := by
  induction kw generalizing acc with
  | nil =>
    cases h
    simp [List.lookup]
  | cons p kw ih =>
    obtain ⟨k, v⟩ := p
    simp only [List.map_cons, List.nodup_cons] at hk
    unfold fillKw at h
    split at h
    · cases h
    · rename_i j hj
      have hj' := (posOf_some required hn k j).1 hj
      have := ih hk.2 (acc.set j (some v)) (by simpa using hl) h
      rw [this]
      have hil : i < required.length := (List.getElem?_eq_some_iff.1 hi).1
      by_cases e : name = k
      · subst e
        have hij : i = j := by
          have h1 := (posOf_some required hn name i).2 hi
          rw [hj] at h1
          cases h1
          rfl
        subst hij
        have hnone : kw.lookup name = none := by
          rw [List.lookup_eq_none_iff]
          intro p hp
          by_contra e
          exact hk.1 (List.mem_map.2 ⟨p, hp, (by simpa using e : name = p.1).symm⟩)
        simp [hnone, List.lookup, hl, hil]
      · have hij : j ≠ i := by
          rintro rfl
          rw [hi] at hj'
          cases hj'
          exact e rfl
        simp [List.lookup, beq_false_of_ne e, List.getElem?_set, hij]

theorem lookup_isSome_of_mem (kw : List (String × V)) (k : String) (h : k ∈ kw.map (·.1)) : ∃ v, kw.lookup k = some v := by
  cases hl : kw.lookup k with
  | some v => exact ⟨v, rfl⟩
  | none =>
    obtain ⟨p, hp, rfl⟩ := List.mem_map.1 h
    rw [List.lookup_eq_none_iff] at hl
    have := hl p hp
    simp at this

/-- C110: keyword arguments are accepted exactly if they are, in whatever order, the required parameters; each parameter then has the value given under its name. -/
theorem C110_keywords (required : List String) (hn : required.Nodup) (kw : List (String × V)) (hk : (kw.map (·.1)).Nodup) (values : List (Option V)) :
    bindParams required [] kw = .ok values ↔ (kw.map (·.1)).Perm required ∧ values = required.map fun k => kw.lookup k := by
  by_cases hlen : kw.length = required.length
  · have hb : bindParams required [] kw = fillKw required kw (List.replicate required.length none) := by simp [bindParams, hlen]
    rw [hb]
    have hperm : (∀ p ∈ kw, p.1 ∈ required) → (kw.map (·.1)).Perm required := by
      intro h
      refine (List.subperm_of_subset hk ?_).perm_of_length_le (by simp [hlen])
      intro x hx
      obtain ⟨p, hp, rfl⟩ := List.mem_map.1 hx
      exact h p hp
    have hval : ∀ out, fillKw required kw (List.replicate required.length none) = .ok out → (kw.map (·.1)).Perm required → out = required.map fun k => kw.lookup k := by
      intro out ho hp
      apply List.ext_getElem?
      intro i
      have hol := fillKw_length _ _ _ _ ho
      rw [List.length_replicate] at hol
      rw [List.getElem?_map]
      cases hi : required[i]? with
      | none =>
        rw [List.getElem?_eq_none_iff] at hi
        simp [hol, hi]
      | some name =>
        obtain ⟨v, hv⟩ := lookup_isSome_of_mem kw name (hp.mem_iff.2 (List.mem_of_getElem? hi))
        rw [fillKw_get required hn kw hk _ out (by simp) ho i name hi, hv]
        simp [hv]
    constructor
    · intro h
      have hp := hperm ((fillKw_ok_iff required kw _).1 ⟨values, h⟩)
      exact ⟨hp, hval values h hp⟩
    · rintro ⟨hp, rfl⟩
      obtain ⟨out, ho⟩ := (fillKw_ok_iff required kw (List.replicate required.length none)).2 (by
        intro p hp'
        exact hp.mem_iff.1 (List.mem_map.2 ⟨p, hp', rfl⟩))
      rw [ho, hval out ho hp]
  · constructor
    · intro h
      exfalso
      unfold bindParams at h
      rw [if_neg (by simp [hlen])] at h
      split at h
      · rename_i hc
        exact hlen (by simpa [hc.2] using hc.1)
      · cases h
    · rintro ⟨hp, _⟩
      exact absurd (by simpa using hp.length_eq) hlen

theorem C110_filled (required : List String) (hn : required.Nodup) (args : List V) (kw : List (String × V)) (hk : (kw.map (·.1)).Nodup) (values : List (Option V))
    (h : bindParams required args kw = .ok values) : values.length = required.length ∧ ∀ v ∈ values, v.isSome := by
  by_cases ha : args = []
  · subst ha
    obtain ⟨hp, rfl⟩ := (C110_keywords required hn kw hk values).1 h
    refine ⟨by simp, ?_⟩
    intro v hv
    obtain ⟨k, hk', rfl⟩ := List.mem_map.1 hv
    obtain ⟨v, hv⟩ := lookup_isSome_of_mem kw k (hp.mem_iff.2 hk')
    simp [hv]
  · unfold bindParams at h
    rw [if_neg (by simp [ha])] at h
    split at h
    · rename_i hc
      cases h
      exact ⟨by simp [hc.1], by simp⟩
    · cases h

/-- C110: a call by position and a call by keyword, in any order, bind the same values. -/
theorem C110_same (required : List String) (hn : required.Nodup) (values : List V) (hlen : values.length = required.length) (kw : List (String × V)) (hkw : kw.Perm (required.zip values)) :
    bindParams required values [] = .ok (values.map some) ∧ bindParams required [] kw = bindParams required values [] := by
  have hkeys : (required.zip values).map (·.1) = required := by
    rw [List.map_fst_zip]
    omega
  have hk : (kw.map (·.1)).Nodup := by
    have := (hkw.map (·.1)).nodup_iff.2 (by rw [hkeys]; exact hn)
    exact this
  have h1 : bindParams required values [] = .ok (values.map some) := by
    unfold bindParams
    split
    · rename_i hc
      have e1 : values = [] := List.length_eq_zero_iff.1 hc.1
      have e2 : required = [] := by
        rw [e1] at hlen
        exact List.length_eq_zero_iff.1 hlen.symm
      subst e1 e2
      rfl
    · simp [hlen]
  refine ⟨h1, ?_⟩
  rw [h1, C110_keywords required hn kw hk]
  refine ⟨by rw [← hkeys]; simpa [hkeys] using hkw.map (·.1), ?_⟩
  apply List.ext_getElem?
  intro i
  rw [List.getElem?_map, List.getElem?_map]
  cases hi : required[i]? with
  | none =>
    rw [List.getElem?_eq_none_iff] at hi
    simp [hi, hlen]
  | some name =>
    obtain ⟨hil, hie⟩ := List.getElem?_eq_some_iff.1 hi
    have hiv : i < values.length := by omega
    have hmem : (name, values[i]) ∈ kw := hkw.mem_iff.2 (by
      rw [List.mem_iff_getElem]
      exact ⟨i, by simp [hiv, hil], by simp [hie]⟩)
    have hl : kw.lookup name = some values[i] := by
      clear h1
      revert hk hmem
      clear hkw
      induction kw with
      | nil => simp
      | cons p kw ih =>
        obtain ⟨k, v⟩ := p
        intro hk hmem
        simp only [List.map_cons, List.nodup_cons] at hk
        rcases List.mem_cons.1 hmem with e | e
        · cases e
          simp [List.lookup]
        · have : name ≠ k := by
            rintro rfl
            exact hk.1 (List.mem_map.2 ⟨_, e, rfl⟩)
          simp only [List.lookup, beq_false_of_ne this]
          exact ih hk.2 e
    simp [hl, hiv]

/-- C110: parameters partly by position and partly by keyword, or too few or too many of them, are refused with a TypeError; a right number of keywords with a wrong name with a KeyError. -/
theorem C110_refused (required : List String) (hr : required ≠ []) (args : List V) (kw : List (String × V)) :
    (args ≠ [] → kw ≠ [] → bindParams required args kw = .error .typeError) ∧
      (args.length + kw.length ≠ required.length → bindParams required args kw = .error .typeError) ∧
      (∀ p ∈ kw, args = [] → kw.length = required.length → p.1 ∉ required → bindParams required args kw = .error .keyError) := by
  have hr' : required.length ≠ 0 := by simpa using hr
  refine ⟨?_, ?_, ?_⟩
  · intro ha hk
    have ha' : args.length ≠ 0 := by simpa using ha
    have hk' : kw.length ≠ 0 := by simpa using hk
    simp [bindParams, ha, hk]
  · intro h
    unfold bindParams
    rw [if_neg (by omega), if_neg (by omega)]
  · intro p hp ha hl hm
    subst ha
    unfold bindParams
    rw [if_pos (by simp [hl])]
    cases hf : fillKw required kw (List.replicate required.length none) with
    | error e => rw [fillKw_error _ _ _ _ hf]
    | ok out => exact absurd ((fillKw_ok_iff required kw _).1 ⟨out, hf⟩ p hp) hm

/-- C110: the dictionary from which the distribution is made has the fixed parameters, and the given values under the remaining required names, and nothing else. -/
theorem C110_dictionary {W : Type} (required : List String) (hn : required.Nodup) (values : List W) (hlen : values.length = required.length) (fixed : List (String × W))
    (hf : (fixed.map (·.1)).Nodup) (k : String) :
    (merged required values fixed).lookup k = (fixed.lookup k).or ((required.zip values).lookup k) := by
  unfold merged
  rw [lookup_updateDict _ _ hf, lookup_updateDict _ _ (by rw [List.map_fst_zip (by omega)]; exact hn)]
  simp

/-! ### Batches -/

/-- C110: called with batches of parameters, by position or by keyword, a sampler returns at each position of the common batch shape the samples for the parameters of that position. `fn` is the
unbatched sampling; its random draws are not shown (they are different at different positions). -/
theorem C110_batched {K O R : Type} (required : List String) (hn : required.Nodup) (slots : List (Option ℕ × ExpectsNdim.Arg K O)) (fn : List (ExpectsNdim.Arg K O) → R)
    (h : ExpectsNdim.Proper slots) (num : ExpectsNdim.Arg K O) (hlen : slots.length = required.length) (B : List ℕ) (hB : ExpectsNdim.CommonBatch slots B)
    (kw : List (String × ExpectsNdim.Arg K O)) (hkw : kw.Perm (required.zip (slots.map Prod.snd))) :
    ∃ tree, samplerCall required (sampleBatch (slots.map Prod.fst) fn) num (slots.map Prod.snd) [] = .ok tree ∧
      samplerCall required (sampleBatch (slots.map Prod.fst) fn) num [] kw = .ok tree ∧ ExpectsNdim.HasShape B tree ∧
      ∀ idx, ExpectsNdim.Position idx B → tree.get idx = some (fn (num :: slots.map fun p => ExpectsNdim.item p.1 idx p.2)) := by
  obtain ⟨h1, h2⟩ := C110_same required hn (slots.map Prod.snd) (by simpa using hlen) kw hkw
  obtain ⟨tree, t1, t2, t3⟩ := ExpectsNdim.C60_batched ((none, num) :: slots) fn (by
      intro p hp d hd
      rcases List.mem_cons.1 hp with rfl | hp
      · cases hd
      · exact h p hp d hd) B (by
      obtain ⟨b1, b2⟩ := hB
      refine ⟨?_, ?_⟩
      · intro p hp
        rcases List.mem_cons.1 hp with rfl | hp
        · simp [ExpectsNdim.batchShape]
        · exact b1 p hp
      · rcases b2 with b2 | ⟨p, hp, b2⟩
        · exact Or.inl b2
        · exact Or.inr ⟨p, List.mem_cons_of_mem _ hp, b2⟩)
  have hfm : ((slots.map Prod.snd).map some).filterMap id = slots.map Prod.snd := by
    rw [List.filterMap_map]
    simp
  have hcall : sampleBatch (slots.map Prod.fst) fn num ((slots.map Prod.snd).map some) = .ok tree := by
    unfold sampleBatch
    rw [hfm]
    exact t1
  refine ⟨tree, ?_, ?_, t2, ?_⟩
  · unfold samplerCall
    rw [h1]
    exact hcall
  · unfold samplerCall
    rw [h2, h1]
    exact hcall
  · intro idx hidx
    rw [t3 idx hidx]
    simp [ExpectsNdim.item]

/-! ### Gradient estimators -/

/-- C110: in a call of a gradient estimator the keywords `objective_sense` and `ranking_method` take precedence over the settings given at its creation, and they are not taken for parameters; what
remains is bound as by a sampler. -/
theorem C110_estimator (e : Estimator V) (args : List V) (kw : List (String × V)) (c : Call V) (h : gradCall e args kw = .ok c) :
    some c.sense = (kw.lookup "objective_sense").or e.sense ∧ c.ranking = (kw.lookup "ranking_method").or e.ranking ∧
      c.lead = args.take (if e.hasFunction then 1 else 2) ∧ c.lead.length = (if e.hasFunction then 1 else 2) ∧
      bindParams e.required (args.drop (if e.hasFunction then 1 else 2)) (kw.filter fun p => p.1 ≠ "objective_sense" ∧ p.1 ≠ "ranking_method") = .ok c.params := by
  have hfil : (kw.filter fun p => p.1 ≠ "objective_sense" ∧ p.1 ≠ "ranking_method") = otherKw kw := by
    unfold otherKw
    congr 1
    funext p
    by_cases a : p.1 = "objective_sense" <;> by_cases b : p.1 = "ranking_method" <;> simp [a, b]
  rw [hfil]
  unfold gradCall at h
  split at h
  · cases h
  · rename_i sense hs
    cases hl : leading e.hasFunction args with
    | error x => simp [hl, Except.bind] at h
    | ok lr =>
      obtain ⟨l, r⟩ := lr
      simp only [hl, Except.bind] at h
      split at h
      · cases h
      · rename_i ps hps
        cases h
        unfold leading at hl
        cases hb : e.hasFunction with
        | true =>
          simp only [hb, if_true] at hl
          split at hl
          · cases hl
            exact ⟨hs.symm, rfl, rfl, rfl, by simpa using hps⟩
          · cases hl
        | false =>
          simp only [hb, Bool.false_eq_true, if_false] at hl
          split at hl
          · cases hl
            exact ⟨hs.symm, rfl, rfl, rfl, by simpa using hps⟩
          · cases hl

/-- C110: without an objective sense, from its creation or the call, the estimator refuses to work. -/
theorem C110_no_sense (e : Estimator V) (args : List V) (kw : List (String × V)) (h1 : e.sense = none) (h2 : "objective_sense" ∉ kw.map (·.1)) : gradCall e args kw = .error .valueError := by
  have : kw.lookup "objective_sense" = none := by
    rw [List.lookup_eq_none_iff]
    intro p hp
    by_contra x
    exact h2 (List.mem_map.2 ⟨p, hp, (by simpa using x : "objective_sense" = p.1).symm⟩)
  simp [gradCall, h1, this]

/-- C110: an estimator with a function gives the gradients which an estimator without one gives for the same parameters with the samples that were drawn and their fitnesses; and these are the ones
which it returns if asked to. -/
theorem C110_modes {D S G P : Type} (lib : Lib D S G P) (hrows : ∀ s, lib.rows (lib.function s) = lib.rows s) (retS retF : Bool) (required : List String) (fixed : List (String × P))
    (sense : String) (ranking : Option String) (num : ℕ) (values : List P) (r : Result G S) (h : gradSampled lib retS retF required fixed sense ranking num values = .ok r) :
    ∃ d, lib.construct (merged required values fixed) = .ok d ∧
      gradGiven lib retS retF required fixed sense ranking (lib.sample d num) (lib.function (lib.sample d num)) values = .ok r ∧
      r.samples = (if retS then some (lib.sample d num) else none) ∧ r.fitnesses = (if retF then some (lib.function (lib.sample d num)) else none) := by
  unfold gradSampled at h
  cases hd : lib.construct (merged required values fixed) with
  | error e => simp [hd, Except.bind] at h
  | ok d =>
    refine ⟨d, rfl, ?_⟩
    simp only [hd, Except.bind] at h
    cases hg : lib.gradients d (lib.sample d num) (lib.function (lib.sample d num)) sense ranking with
    | error e => simp [hg] at h
    | ok g =>
      simp only [hg] at h
      cases h
      refine ⟨?_, rfl, rfl⟩
      simp [gradGiven, hrows, hd, hg, Except.bind]

/-- C110: samples and fitnesses of different numbers are refused. -/
theorem C110_mismatch {D S G P : Type} (lib : Lib D S G P) (retS retF : Bool) (required : List String) (fixed : List (String × P)) (sense : String) (ranking : Option String)
    (samples fitnesses : S) (values : List P) (h : lib.rows samples ≠ lib.rows fitnesses) :
    gradGiven lib retS retF required fixed sense ranking samples fitnesses values = .error .valueError := by
  simp [gradGiven, h]

/-! ### Non-vacuity -/

example : bindParams ["mu", "sigma"] [] [("sigma", 2), ("mu", 1)] = .ok [some 1, some 2] := by decide
example : bindParams ["mu", "sigma"] [1] [("sigma", 2)] = .error .typeError := by decide
example : bindParams ["mu", "sigma"] [] [("sigma", 2), ("m", 1)] = .error .keyError := by decide
example : gradCall ⟨true, some 0, none, ["mu", "sigma"]⟩ [100] [("sigma", 2), ("objective_sense", 5), ("mu", 1)] = .ok ⟨5, none, [100], [some 1, some 2]⟩ := by decide
example : merged ["mu", "sigma"] [1, 2] [("x", 7), ("sigma", 3)] = [("mu", 1), ("sigma", 3), ("x", 7)] := by decide

/-- A distribution is a dictionary here, samples are numbers. -/
def exLib : Lib (List (String × ℕ)) ℕ ℕ ℕ := ⟨.ok, fun d n => d.length + n, fun s => s, fun s => s, fun d s f _ _ => .ok (d.length * s * f)⟩

example : gradSampled exLib true false ["mu", "sigma"] [] "min" none 5 [1, 2] = .ok ⟨98, some 7, none⟩ := by decide

/-- A batch of two `mu` vectors and one `sigma`. -/
def exSlots : List (Option ℕ × ExpectsNdim.Arg ℕ Unit) :=
  [(some 1, .tensor { shape := [2, 3], val := fun _ => 1, dtype := 0, device := 0 }), (some 1, .tensor { shape := [3], val := fun _ => 1, dtype := 0, device := 0 })]

example : ExpectsNdim.Proper exSlots ∧ ExpectsNdim.CommonBatch exSlots [2] := by
  refine ⟨?_, ?_, Or.inr ⟨_, List.mem_cons_self .., rfl⟩⟩
  · intro p hp d hd
    simp only [exSlots, List.mem_cons, List.not_mem_nil, or_false] at hp
    rcases hp with rfl | rfl <;> cases hd <;> exact ⟨_, rfl, by decide⟩
  · intro p hp
    simp only [exSlots, List.mem_cons, List.not_mem_nil, or_false] at hp
    rcases hp with rfl | rfl <;> simp [ExpectsNdim.batchShape]

end EvoTorch.FunctionalCalls
