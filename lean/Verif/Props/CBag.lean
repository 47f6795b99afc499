import Verif.Proofs.CBag
/-!
C07: a (batched) `CBag` samples without replacement.
-/
namespace EvoTorch.CBag
open EvoTorch.CList (Rep)
open EvoTorch.Spec.Bag (Call State Step Trace)

variable {B : Nat} {c : Cfg}

/-- Values given to a push lie in the declared value range (for the selected items). -/
def InRange (c : Cfg) : Call B → Prop
  | .push v w => ∀ i, w i = true → c.low ≤ v i ∧ v i < c.high
  | _ => True

/-- What `argsort` of a row of length `max_length` returns lies in `[0, max_length)`. -/
def NoiseOk (c : Cfg) (noise : Fin B → Nat → Int) : Prop :=
  ∀ i j, j < c.maxLength → 0 ≤ noise i j ∧ noise i j < c.maxLength

/-- Invariant: every row represents a list whose multiset is the content of the specified bag. -/
structure Inv (c : Cfg) (b : Bag B) (s : State B) : Prop where
  phase : b.sampling = s.sampling
  filling : s.sampling = false → ∀ i, ∃ l : List Int, (l : Multiset Int) = s.rem i ∧ Filling c (b.list i) l
  sampled : s.sampling = true → ∀ i, ∃ l : List Int, (l : Multiset Int) = s.rem i ∧ Rep c.maxLength (b.list i) l

theorem append_state (L : Int) (cl : CList.Batch B Int) (v : Fin B → Int) (w : Fin B → Bool)
    (h : (CList.append L cl v w).result = .ok ()) (i : Fin B) :
    (CList.append L cl v w).state i =
      let r := CList.moveEndForward L (cl i) (w i)
      CList.writeAt L r (CList.underlyingKey L r (-1)) (if w i then v i else CList.readAt L r (CList.underlyingKey L r (-1))) := by
  unfold CList.append at h ⊢
  split at h
  · simp at h
  · rename_i h1
    rw [if_neg h1]
    unfold CList.set CList.modify at h ⊢
    split at h
    · simp at h
    · rename_i h2
      rw [if_neg h2]
      split at h
      · simp at h
      · rename_i h3
        rw [if_neg h3]

theorem inv_step (hc : c.Ok) (b : Bag B) (s : State B) (h : Inv c b s) (call : Call B) (hin : InRange c call)
    (noise : Fin B → Nat → Int) (hn : NoiseOk c noise) :
    ∃ s', Step c.maxLength s call (exec c noise b call).result s' ∧ Inv c (exec c noise b call).state s' := by
  have hL : (2 : Int) ≤ c.maxLength := by have := hc.len; omega
  cases call with
  | push v w =>
    by_cases hs : s.sampling = true
    · refine ⟨s, ?_, ?_⟩
      · simp [Step, hs, exec, h.phase]
      · simpa [exec, h.phase, hs] using h
    · have hsf : s.sampling = false := by simpa using hs
      choose l hl hf using h.filling hsf
      have hb : b.sampling = false := by rw [h.phase, hsf]
      have hsim := CList.sim_append (cap := c.maxLength) rfl hL (fun i => (hf i).rep) v w 0
      have hnone : ∀ i, Spec.Deque.step c.maxLength (l i) (.append (v i)) = none ↔ (s.rem i).card = c.maxLength := by
        intro i
        have : (l i).length ≤ c.maxLength := by have := (hf i).rep.length_le hL; omega
        rw [← hl i, Multiset.coe_card]
        simp [Spec.Deque.step]; omega
      by_cases hfull : ∃ i, w i = true ∧ (s.rem i).card = c.maxLength
      · obtain ⟨i, hw, hi⟩ := hfull
        obtain ⟨h1, h2⟩ := hsim.bad ⟨i, hw, (hnone i).mpr hi⟩
        have h1' : (CList.append (c.maxLength : Int) b.list v w).result = .error .indexError := by
          simp only [CList.exec] at h1
          cases hr : (CList.append (c.maxLength : Int) b.list v w).result with
          | ok u => rw [hr] at h1; simp [Except.map] at h1
          | error e => rw [hr] at h1; simpa [Except.map] using h1
        have h2' : (CList.append (c.maxLength : Int) b.list v w).state = b.list := h2
        refine ⟨s, ?_, ?_⟩
        · simp only [Step, hsf, exec, hb, h1']
          rw [if_neg (by simp), if_pos ⟨i, hw, hi⟩]
          simp [Except.map]
        · simp only [exec, hb, h2', Bool.false_eq_true, if_false]
          exact ⟨hsf.symm, h.filling, h.sampled⟩
      · obtain ⟨f, h1, h2⟩ := hsim.good (by
          rintro ⟨i, hw, hi⟩; exact hfull ⟨i, hw, (hnone i).mp hi⟩)
        have h1' : (CList.append (c.maxLength : Int) b.list v w).result = .ok () := by
          simp only [CList.exec] at h1
          cases hr : (CList.append (c.maxLength : Int) b.list v w).result with
          | ok u => rfl
          | error e => rw [hr] at h1; simp [Except.map] at h1
        have hst := append_state _ _ _ _ h1'
        refine ⟨⟨false, fun i => if w i then v i ::ₘ s.rem i else s.rem i⟩, ?_, ?_⟩
        · simp only [Step, hsf, exec, hb, h1']
          rw [if_neg (by simp), if_neg hfull]
          simp [Except.map]
        · simp only [exec, hb, Bool.false_eq_true, if_false]
          refine ⟨rfl, fun _ i => ?_, fun hc => by simp at hc⟩
          cases hw : w i with
          | true =>
            obtain ⟨l', h3, h4⟩ := (h2 i).1 hw
            have hlt : (l i).length < c.maxLength := by
              by_contra hge
              apply hfull
              refine ⟨i, hw, (hnone i).mp ?_⟩
              simp [Spec.Deque.step, hge]
            simp only [CList.Call.at, Spec.Deque.step, hlt, if_true, Option.some.injEq, Prod.mk.injEq] at h3
            obtain ⟨rfl, _⟩ := h3
            refine ⟨l i ++ [v i], ?_, ?_⟩
            · simp only [hw, if_true, ← hl i, Multiset.cons_coe, Multiset.coe_eq_coe]
              exact List.perm_append_singleton _ _
            · have h4' : Rep (c.maxLength : Int) ((CList.append (c.maxLength : Int) b.list v w).state i) (l i ++ [v i]) := h4
              show Filling c ((CList.append (c.maxLength : Int) b.list v w).state i) (l i ++ [v i])
              rw [hst i] at h4' ⊢
              simp only [hw, if_true] at h4' ⊢
              exact (hf i).push hc hlt (v i) (hin i hw) h4'
          | false =>
            refine ⟨l i, by simpa [hw] using hl i, ?_⟩
            show Filling c ((CList.append (c.maxLength : Int) b.list v w).state i) (l i)
            rw [hst i]
            simp only [hw, Bool.false_eq_true, if_false, writeAt_self, CList.moveEndForward_false]
            exact hf i
  | pop w =>
    -- after the shuffle (if any), every row represents a list with the same multiset
    obtain ⟨b1, hb1, hr⟩ : ∃ b1 : Bag B, b1 = (if b.sampling then b else
        ⟨fun i => shuffleRow c (noise i) (b.list i), true⟩) ∧
        (b1.sampling = true ∧ ∀ i, ∃ l : List Int, (l : Multiset Int) = s.rem i ∧ Rep c.maxLength (b1.list i) l) := by
      refine ⟨_, rfl, ?_⟩
      by_cases hs : s.sampling = true
      · have hb : b.sampling = true := by rw [h.phase, hs]
        rw [if_pos hb]
        exact ⟨hb, h.sampled hs⟩
      · have hsf : s.sampling = false := by simpa using hs
        have hb : b.sampling = false := by rw [h.phase, hsf]
        rw [if_neg (by simp [hb])]
        refine ⟨rfl, fun i => ?_⟩
        obtain ⟨l, hl, hf⟩ := h.filling hsf i
        obtain ⟨l', hp, hrep⟩ := hf.shuffle hc (noise i) (hn i)
        exact ⟨l', by rw [← hl]; exact Multiset.coe_eq_coe.mpr hp, hrep⟩
    obtain ⟨hb1s, hr⟩ := hr
    choose l hl hrep using hr
    have hsim := CList.sim_pop (cap := c.maxLength) hL hrep w 0
    have hnone : ∀ i, Spec.Deque.step c.maxLength (l i) (.pop : Spec.Deque.Op Int) = none ↔ s.rem i = 0 := by
      intro i; rw [← hl i]; simp [Spec.Deque.step]
    by_cases hemp : ∃ i, w i = true ∧ s.rem i = 0
    · obtain ⟨i, hw, hi⟩ := hemp
      obtain ⟨h1, h2⟩ := hsim.bad ⟨i, hw, (hnone i).mpr hi⟩
      have h1' : (CList.pop (c.maxLength : Int) 0 b1.list w).result = .error .indexError := by
        simp only [CList.exec] at h1
        cases hr : (CList.pop (c.maxLength : Int) 0 b1.list w).result with
        | ok u => rw [hr] at h1; simp [Except.map] at h1
        | error e => rw [hr] at h1; simpa [Except.map] using h1
      have h2' : (CList.pop (c.maxLength : Int) 0 b1.list w).state = b1.list := h2
      refine ⟨⟨true, s.rem⟩, ?_, ?_⟩
      · simp only [Step, exec, ← hb1, h1', true_and]
        rw [if_pos ⟨i, hw, hi⟩]
        simp
      · simp only [exec, ← hb1, h2']
        exact ⟨hb1s, fun h => by simp at h, fun _ i => ⟨l i, hl i, hrep i⟩⟩
    · obtain ⟨f, h1, h2⟩ := hsim.good (by
        rintro ⟨i, hw, hi⟩; exact hemp ⟨i, hw, (hnone i).mp hi⟩)
      obtain ⟨o, h1'⟩ : ∃ o, (CList.pop (c.maxLength : Int) 0 b1.list w).result = .ok o := by
        simp only [CList.exec] at h1
        cases hr : (CList.pop (c.maxLength : Int) 0 b1.list w).result with
        | ok u => exact ⟨u, rfl⟩
        | error e => rw [hr] at h1; simp [Except.map] at h1
      have hf : ∀ i, f i = .val (o i) := by
        simp only [CList.exec, h1', Except.map, Except.ok.injEq] at h1
        intro i; rw [← h1]
      have hlast : ∀ i, w i = true → ∃ d, l i = d ++ [o i] ∧
          Rep (c.maxLength : Int) ((CList.pop (c.maxLength : Int) 0 b1.list w).state i) d := by
        intro i hw
        obtain ⟨l', h3, h4⟩ := (h2 i).1 hw
        refine ⟨l', ?_, h4⟩
        simp only [CList.Call.at, Spec.Deque.step, Option.map_eq_some_iff, Prod.mk.injEq, hf] at h3
        obtain ⟨x, hx, rfl, hx'⟩ := h3
        cases hx'
        have hne : l i ≠ [] := by intro h; rw [h] at hx; simp at hx
        rw [List.getLast?_eq_some_getLast hne, Option.some.injEq] at hx
        rw [← hx]; exact (List.dropLast_append_getLast hne).symm
      refine ⟨⟨true, fun i => if w i then (s.rem i).erase (o i) else s.rem i⟩, ?_, ?_⟩
      · simp only [Step, exec, ← hb1, h1', true_and]
        rw [if_neg hemp]
        refine ⟨o, rfl, fun i => ⟨fun hw => ?_, fun hw => by simp [hw]⟩⟩
        obtain ⟨d, hd, _⟩ := hlast i hw
        refine ⟨?_, by simp [hw]⟩
        rw [← hl i, hd]; simp
      · simp only [exec, ← hb1]
        refine ⟨hb1s, fun h => by simp at h, fun _ i => ?_⟩
        cases hw : w i with
        | true =>
          obtain ⟨d, hd, hrd⟩ := hlast i hw
          refine ⟨d, ?_, hrd⟩
          simp only [hw, if_true]
          rw [← hl i, hd]
          have : ((d ++ [o i] : List Int) : Multiset Int) = o i ::ₘ (d : Multiset Int) := by
            rw [Multiset.cons_coe, Multiset.coe_eq_coe]; exact List.perm_append_singleton _ _
          rw [this, Multiset.erase_cons_head]
        | false =>
          refine ⟨l i, by simpa [hw] using hl i, ?_⟩
          have := (h2 i).2 hw
          exact this
  | length =>
    refine ⟨s, ⟨?_, rfl⟩, h⟩
    simp only [exec]
    congr 1; funext i
    by_cases hs : s.sampling = true
    · obtain ⟨l, hl, hr⟩ := h.sampled hs i
      rw [hr.length_spec hL, ← hl]; simp
    · obtain ⟨l, hl, hf⟩ := h.filling (by simpa using hs) i
      rw [hf.rep.length_spec hL, ← hl]; simp
  | clear =>
    refine ⟨⟨false, fun _ => 0⟩, ⟨⟨_, rfl⟩, rfl⟩, ⟨rfl, fun _ i => ⟨[], rfl, ?_⟩, fun h => by simp at h⟩⟩
    exact ⟨CList.rep_new _ ⟨rfl, rfl⟩, fun h => absurd rfl h, by simp, fun j _ _ => rfl⟩

/-- **C07.** Whatever the random noise, every history of calls on a batched bag (value range starting at 1 or below, no integer
overflow) is a trace of the specification: each pop of a selected item returns and removes an element that was pushed and
not yet popped, a full or empty selected item makes the call raise `IndexError` without changing any content, pushing
after the first pop raises `RuntimeError`, and `length` counts what remains. -/
theorem C07_bag_samples_without_replacement_partial (hc : c.Ok) (calls : List (Call B × (Fin B → Nat → Int)))
    (hin : ∀ p ∈ calls, InRange c p.1 ∧ NoiseOk c p.2) :
    ∃ s', Trace c.maxLength ⟨false, fun _ => 0⟩ (run c (new c B) calls) s' := by
  have key : ∀ (calls : List (Call B × (Fin B → Nat → Int))) (b : Bag B) (s : State B),
      (∀ p ∈ calls, InRange c p.1 ∧ NoiseOk c p.2) → Inv c b s → ∃ s', Trace c.maxLength s (run c b calls) s' := by
    intro calls
    induction calls with
    | nil => intro b s _ _; exact ⟨s, .nil s⟩
    | cons p rest ih =>
      intro b s hin h
      obtain ⟨s1, h1, h2⟩ := inv_step hc b s h p.1 (hin p (by simp)).1 p.2 (hin p (by simp)).2
      obtain ⟨s2, h3⟩ := ih _ s1 (fun q hq => hin q (List.mem_cons_of_mem _ hq)) h2
      exact ⟨s2, .cons h1 h3⟩
  refine key calls _ _ hin ⟨rfl, fun _ i => ⟨[], rfl, ?_⟩, fun h => by simp at h⟩
  exact ⟨CList.rep_new _ ⟨rfl, rfl⟩, fun h => absurd rfl h, by simp, fun j _ _ => rfl⟩

/-- The default configuration for `max_length = 3` with 64-bit integers satisfies the hypotheses. -/
example : Cfg.Ok ⟨3, 0, 3, 64⟩ := ⟨by decide, by decide, by decide, by decide, by decide, by decide⟩

/-- A concrete history: push 2, 0, 1, then pop with noise `(1, 2, 0)`. -/
example : ((run (⟨3, 0, 3, 64⟩ : Cfg) (new ⟨3, 0, 3, 64⟩ 1)
      [(.push (fun _ => 2) (fun _ => true), fun _ _ => 0), (.push (fun _ => 0) (fun _ => true), fun _ _ => 0),
       (.push (fun _ => 1) (fun _ => true), fun _ _ => 0),
       (.pop (fun _ => true), fun _ j => if j = 0 then 1 else if j = 1 then 2 else 0),
       (.pop (fun _ => true), fun _ _ => 0), (.pop (fun _ => true), fun _ _ => 0)]).map
      fun p => p.2.map fun f => f 0) = [.ok 0, .ok 0, .ok 0, .ok 1, .ok 2, .ok 0] := by decide +kernel

/-- **The claim is false for value ranges starting at 2 or above**: with `value_range = (5, 7)`, the bag `{5}` yields 2. -/
theorem C07_violated_high_value_range :
    ((run (⟨2, 5, 7, 64⟩ : Cfg) (new ⟨2, 5, 7, 64⟩ 1)
      [(.push (fun _ => 5) (fun _ => true), fun _ _ => 0), (.pop (fun _ => true), fun _ j => j)]).map
      fun p => p.2.map fun f => f 0) = [.ok 0, .ok 2] := by decide +kernel

/-- **The claim is false for 16-bit bags whose range is large**: with `value_range = (0, 20000)`, the bag `{15000, 19999}` yields
9467, which was never pushed (integer overflow in `_shuffle`). -/
theorem C07_violated_int16_overflow :
    ((run (⟨2, 0, 20000, 16⟩ : Cfg) (new ⟨2, 0, 20000, 16⟩ 1)
      [(.push (fun _ => 15000) (fun _ => true), fun _ _ => 0), (.push (fun _ => 19999) (fun _ => true), fun _ _ => 0),
       (.pop (fun _ => true), fun _ j => 1 - j)]).map
      fun p => p.2.map fun f => f 0) = [.ok 0, .ok 0, .ok 9467] := by decide +kernel

/-- With a batch shape of one dimension this is what the theorem above is about. -/
theorem C07_one_batch_dimension (n : Nat) (cfg : Cfg) (b : Bag B) (calls : List (Call B × (Fin B → Nat → Int))) : runShaped [n] cfg b calls = run cfg b calls := by
  induction calls generalizing b with
  | nil => rfl
  | cons p rest ih =>
    have h : execShaped [n] cfg p.2 b p.1 = exec cfg p.2 b p.1 := by
      rcases p with ⟨c, noise⟩
      cases c <;> rcases hb : b.sampling <;> simp [execShaped, hb]
    simp only [runShaped, run, h, ih]

/-- **The claim is false for bags without a batch dimension, and for those with several**: whatever was pushed, every `pop_` raises `ValueError`. -/
theorem C07_violated_batch_shape (batchShape : List Nat) (hd : batchShape.length ≠ 1) (cfg : Cfg) (calls : List (Call B × (Fin B → Nat → Int))) :
    ∀ p ∈ runShaped batchShape cfg (new cfg B) calls, ∀ w, p.1 = .pop w → p.2 = .error .valueError := by
  have key : ∀ (calls : List (Call B × (Fin B → Nat → Int))) (b : Bag B), b.sampling = false →
      ∀ p ∈ runShaped batchShape cfg b calls, ∀ w, p.1 = .pop w → p.2 = .error .valueError := by
    intro calls
    induction calls with
    | nil => intro b _ p hp; simp [runShaped] at hp
    | cons c rest ih =>
      intro b hb p hp w hw
      rcases c with ⟨c, noise⟩
      have hpop : ∀ w, execShaped batchShape cfg noise b (.pop w) = ⟨b, .error .valueError⟩ := by
        intro w
        match batchShape, hd with
        | [], _ => simp [execShaped, hb]
        | x :: y :: l, _ => cases l <;> simp [execShaped, hb]
      have hstate : (execShaped batchShape cfg noise b c).state.sampling = false := by
        cases c with
        | pop w => rw [hpop]; exact hb
        | push v w => simp [execShaped, exec, hb]
        | length => simp [execShaped, exec, hb]
        | clear => simp [execShaped, exec]
      simp only [runShaped, List.mem_cons] at hp
      rcases hp with rfl | hp
      · simp only at hw
        subst hw
        rw [hpop]
      · exact ih _ hstate p hp w hw
  exact key calls (new cfg B) rfl

/-- A bag made without a batch shape: `CBag(max_length=3)`, one push, one pop. -/
example : ((runShaped [] (⟨3, 0, 3, 64⟩ : Cfg) (new ⟨3, 0, 3, 64⟩ 1) [(.push (fun _ => 2) (fun _ => true), fun _ _ => 0), (.pop (fun _ => true), fun _ j => j)]).map
    fun p => p.2.map fun f => f 0) = [.ok 0, .error .valueError] := by decide +kernel

end EvoTorch.CBag
