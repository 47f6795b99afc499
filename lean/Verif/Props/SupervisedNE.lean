import Verif.Model.SupervisedNE
import Mathlib.Data.List.Basic
import Mathlib.Algebra.BigOperators.Group.List.Basic
import Mathlib.Tactic.Ring
import Mathlib.Algebra.Field.Rat
import Mathlib.Data.Rat.Defs
import Mathlib.Tactic.NormNum
/-! Property C66: minibatches are drawn cyclically; losses are averages over the minibatches; common minibatches are common. -/
namespace EvoTorch.SupervisedNE
open EvoTorch
variable {B S K : Type}

/-! ### Specification -/

/-- `str` is the endless sequence of minibatches which goes through pass 0, then pass 1, and so on. -/
def IsStream (passes : ℕ → List B) (str : ℕ → B) : Prop :=
  ∀ k i, i < ((List.range k).flatMap passes).length → ((List.range k).flatMap passes)[i]? = some (str i)

/-- The average loss of a network over the minibatches number `m`, ..., `m + n - 1` of the stream. -/
def average [Field K] (loss : S → B → K) (net : S) (str : ℕ → B) (m n : ℕ) : K := ((List.range n).map fun j => loss net (str (m + j))).sum / n

/-- The loader after `m` requests. -/
def after (passes : ℕ → List B) : ℕ → Loader B
  | 0 => initial
  | m + 1 => (getMinibatch passes (after passes m)).state

/-! ### Requests -/

/-- What is left after `m` requests: the stream from `m` on begins with the rest of the current pass. -/
def Good (passes : ℕ → List B) (m : ℕ) (s : Loader B) : Prop :=
  (List.range s.begun).flatMap passes = ((List.range s.begun).flatMap passes).take m ++ s.iterator.getD [] ∧
  m + (s.iterator.getD []).length = ((List.range s.begun).flatMap passes).length ∧ (s.iterator = none → s.begun = 0)

theorem good_initial (passes : ℕ → List B) : Good passes 0 initial := by simp [Good, initial]

theorem flat_succ (passes : ℕ → List B) (k : ℕ) : (List.range (k + 1)).flatMap passes = (List.range k).flatMap passes ++ passes k := by
  simp [List.range_succ]

theorem good_request (passes : ℕ → List B) (hne : ∀ k, passes k ≠ []) (str : ℕ → B) (hstr : IsStream passes str) (m : ℕ) (s : Loader B)
    (h : Good passes m s) : (getMinibatch passes s).result = .ok (str m) ∧ Good passes (m + 1) (getMinibatch passes s).state := by
  -- the state after `iter` has been called if necessary
  have hens : Good passes m (ensureIterator passes s) ∧ (ensureIterator passes s).iterator ≠ none := by
    unfold ensureIterator
    cases hi : s.iterator with
    | some l => exact ⟨h, by simp [hi]⟩
    | none =>
      have h0 := h.2.2 hi
      have h1 := h.2.1
      simp [hi, h0] at h1
      subst h1
      simp [Good, h0]
  obtain ⟨⟨g1, g2, -⟩, g3⟩ := hens
  unfold getMinibatch
  generalize ensureIterator passes s = t at *
  obtain ⟨it, k⟩ := t
  cases it with
  | none => exact absurd rfl g3
  | some l =>
    cases l with
    | cons b rest =>
      simp only [Option.getD, List.length_cons] at g1 g2 ⊢
      have hlt : m < ((List.range k).flatMap passes).length := by omega
      have hlen : (((List.range k).flatMap passes).take m).length = m := by rw [List.length_take]; omega
      have hb : ((List.range k).flatMap passes)[m]? = some b := by
        rw [g1, List.getElem?_append_right (by omega), hlen]; simp
      have hb2 := hstr k m hlt
      rw [hb] at hb2
      refine ⟨by rw [Option.some.inj hb2], ?_, by simp only [Option.getD]; omega, by simp⟩
      simp only [Option.getD]
      rw [List.take_add_one, hb, Option.toList_some, List.append_assoc, List.singleton_append]
      exact g1
    | nil =>
      simp only [Option.getD, List.length_nil, Nat.add_zero] at g1 g2 ⊢
      cases hp : passes k with
      | nil => exact absurd hp (hne k)
      | cons b rest =>
        simp only []
        have hm : ((List.range k).flatMap passes).length = m := g2.symm
        have hflat := flat_succ passes k
        rw [hp] at hflat
        have hb : ((List.range (k + 1)).flatMap passes)[m]? = some b := by
          rw [hflat, List.getElem?_append_right (by omega), hm]; simp
        have hb2 := hstr (k + 1) m (by rw [hflat, List.length_append, List.length_cons]; omega)
        rw [hb] at hb2
        refine ⟨by rw [Option.some.inj hb2], ?_, ?_, by simp⟩
        · simp only [Option.getD]
          rw [List.take_add_one, hb, hflat, List.take_left' hm]
          simp
        · simp only [Option.getD]
          rw [hflat, List.length_append, hm, List.length_cons]; omega

theorem after_good (passes : ℕ → List B) (hne : ∀ k, passes k ≠ []) (str : ℕ → B) (hstr : IsStream passes str) (m : ℕ) :
    Good passes m (after passes m) := by
  induction m with
  | zero => exact good_initial passes
  | succ m ih => exact (good_request passes hne str hstr m _ ih).2

/-- **C66.** With a loader whose passes are not empty, request number `m` (counting from zero) returns element `m` of the endless sequence which goes through pass 0, pass 1, ... -/
theorem C66_cyclic (passes : ℕ → List B) (hne : ∀ k, passes k ≠ []) (str : ℕ → B) (hstr : IsStream passes str) (m : ℕ) :
    (getMinibatch passes (after passes m)).result = .ok (str m) :=
  (good_request passes hne str hstr m _ (after_good passes hne str hstr m)).1

/-- **C66.** In particular if every pass has `L` minibatches, request `m` returns minibatch `m % L` of pass `m / L`. -/
theorem C66_pass_position (passes : ℕ → List B) (L : ℕ) (hL : 0 < L) (hlen : ∀ k, (passes k).length = L) (str : ℕ → B) (hstr : IsStream passes str) (m : ℕ) :
    (passes (m / L))[m % L]? = some (str m) ∧ (getMinibatch passes (after passes m)).result = .ok (str m) := by
  have hne : ∀ k, passes k ≠ [] := fun k hk => by have := hlen k; rw [hk] at this; simp at this; omega
  refine ⟨?_, C66_cyclic passes hne str hstr m⟩
  have hflat : ∀ k, ((List.range k).flatMap passes).length = k * L := by
    intro k
    induction k with
    | zero => simp
    | succ k ih => rw [flat_succ, List.length_append, ih, hlen]; ring
  have hmod := Nat.mod_lt m hL
  have hdm := Nat.div_add_mod m L
  have hcomm : m / L * L = L * (m / L) := Nat.mul_comm _ _
  have h1 := hstr (m / L + 1) m (by rw [hflat, Nat.add_mul, Nat.one_mul]; omega)
  rw [flat_succ, List.getElem?_append_right (by rw [hflat]; omega), hflat] at h1
  rw [← h1]
  congr 1
  omega

/-- Such a sequence exists for every loader with non-empty passes. -/
theorem exists_stream (passes : ℕ → List B) (hne : ∀ k, passes k ≠ []) : ∃ str, IsStream passes str := by
  have hlen : ∀ k, k ≤ ((List.range k).flatMap passes).length := by
    intro k
    induction k with
    | zero => simp
    | succ k ih =>
      have : 0 < (passes k).length := List.length_pos_iff.2 (hne k)
      rw [flat_succ, List.length_append]; omega
  have hpre : ∀ k d i, i < ((List.range k).flatMap passes).length → ((List.range (k + d)).flatMap passes)[i]? = ((List.range k).flatMap passes)[i]? := by
    intro k d
    induction d with
    | zero => intro i _; rfl
    | succ d ih =>
      intro i hi
      have hmono : ((List.range k).flatMap passes).length ≤ ((List.range (k + d)).flatMap passes).length := by
        clear ih hi
        induction d with
        | zero => exact le_rfl
        | succ d ih => rw [← Nat.add_assoc, flat_succ, List.length_append]; omega
      rw [← Nat.add_assoc, flat_succ, List.getElem?_append_left (by omega), ih i hi]
  refine ⟨fun i => ((List.range (i + 1)).flatMap passes)[i]'(by have := hlen (i + 1); omega), ?_⟩
  intro k i hi
  rw [← List.getElem?_eq_getElem]
  rcases le_total k (i + 1) with hk | hk
  · obtain ⟨d, hd⟩ := Nat.exists_eq_add_of_le hk
    rw [hd, hpre k d i hi]
  · obtain ⟨d, hd⟩ := Nat.exists_eq_add_of_le hk
    have := hlen (i + 1)
    rw [hd, hpre (i + 1) d i (by omega)]

/-! ### Losses -/

theorem getMinibatches_eq (passes : ℕ → List B) (hne : ∀ k, passes k ≠ []) (str : ℕ → B) (hstr : IsStream passes str) (n : ℕ) : ∀ m,
    getMinibatches passes n (after passes m) = ⟨after passes (m + n), .ok ((List.range n).map fun j => str (m + j))⟩ := by
  induction n with
  | zero => intro m; rfl
  | succ n ih =>
    intro m
    have h1 := C66_cyclic passes hne str hstr m
    have h2 : (getMinibatch passes (after passes m)).state = after passes (m + 1) := rfl
    simp only [getMinibatches, h1, h2, ih (m + 1), Except.map]
    refine congrArg₂ Outcome.mk (by congr 1; omega) ?_
    rw [List.range_succ_eq_map]
    simp only [List.map_cons, List.map_map, Nat.add_zero]
    congr 2
    apply List.map_congr_left
    intro j _
    simp only [Function.comp_apply]
    congr 1; omega

theorem accumulate_eq [Field K] (loss : S → B → K) (num : ℕ) (net : S) (bs : List B) : ∀ acc,
    accumulate loss num net acc bs = acc + (bs.map (loss net)).sum / num := by
  induction bs with
  | nil => intro acc; simp [accumulate]
  | cons b bs ih => intro acc; simp only [accumulate, ih, List.map_cons, List.sum_cons]; ring

/-- **C66 (partial).** With common minibatches and without actors, an evaluation after `m` requests scores every network of the batch by the average of its losses over the same `num_minibatches` minibatches, the next ones of
the loader; exactly these are consumed. -/
theorem C66_common_partial [Field K] (passes : ℕ → List B) (hne : ∀ k, passes k ≠ []) (str : ℕ → B) (hstr : IsStream passes str) (loss : S → B → K)
    (n : ℕ) (nets : List S) (m : ℕ) :
    evaluateBatch passes loss true n nets (after passes m) = ⟨after passes (m + n), .ok (nets.map fun net => average loss net str m n)⟩ := by
  simp only [evaluateBatch, if_true, getMinibatches_eq passes hne str hstr n m, Except.map, accumulate_eq, zero_add, List.map_map]
  rfl

theorem evaluateSeparate_eq [Field K] (passes : ℕ → List B) (hne : ∀ k, passes k ≠ []) (str : ℕ → B) (hstr : IsStream passes str) (loss : S → B → K)
    (num : ℕ) (net : S) (n : ℕ) : ∀ acc m,
    evaluateSeparate passes loss num net n acc (after passes m) =
      ⟨after passes (m + n), .ok (acc + ((List.range n).map fun j => loss net (str (m + j))).sum / num)⟩ := by
  induction n with
  | zero => intro acc m; simp [evaluateSeparate]
  | succ n ih =>
    intro acc m
    have h1 := C66_cyclic passes hne str hstr m
    have h2 : (getMinibatch passes (after passes m)).state = after passes (m + 1) := rfl
    simp only [evaluateSeparate, h1, h2, ih]
    refine congrArg₂ Outcome.mk (by congr 1; omega) (congrArg _ ?_)
    rw [List.range_succ_eq_map]
    simp only [List.map_cons, List.map_map, Nat.add_zero, List.sum_cons]
    have : (List.map ((fun j => loss net (str (m + j))) ∘ Nat.succ) (List.range n)) = (List.range n).map fun j => loss net (str (m + 1 + j)) := by
      apply List.map_congr_left
      intro j _
      simp only [Function.comp_apply]
      congr 2; omega
    rw [this]; ring

/-- **C66.** Without common minibatches, network number `i` of the batch is scored by the average over its own `num_minibatches` minibatches, which follow those of the network before it. -/
theorem C66_separate [Field K] (passes : ℕ → List B) (hne : ∀ k, passes k ≠ []) (str : ℕ → B) (hstr : IsStream passes str) (loss : S → B → K)
    (n : ℕ) (nets : List S) (m : ℕ) :
    ∃ fs, evaluateBatch passes loss false n nets (after passes m) = ⟨after passes (m + nets.length * n), .ok fs⟩ ∧ fs.length = nets.length ∧
      ∀ i net, nets[i]? = some net → fs[i]? = some (average loss net str (m + i * n) n) := by
  simp only [evaluateBatch, Bool.false_eq_true, if_false]
  induction nets generalizing m with
  | nil => exact ⟨[], by simp [evaluateAllSeparate], rfl, by simp⟩
  | cons net nets ih =>
    obtain ⟨fs, h1, h2, h3⟩ := ih (m + n)
    refine ⟨average loss net str m n :: fs, ?_, by simp [h2], ?_⟩
    · simp only [evaluateAllSeparate, evaluateSeparate_eq passes hne str hstr, h1, Except.map, zero_add]
      refine congrArg₂ Outcome.mk ?_ rfl
      congr 1
      simp only [List.length_cons]; ring
    · intro i q hq
      cases i with
      | zero => simp at hq; subst hq; simp
      | succ i =>
        simp only [List.getElem?_cons_succ] at hq ⊢
        rw [h3 i q hq]
        congr 2; ring

/-- **C66.** An empty loader raises StopIteration instead of returning something. -/
theorem C66_empty_loader (passes : ℕ → List B) (h : ∀ k, passes k = []) (m : ℕ) :
    (getMinibatch passes (after passes m)).result = .error .otherError := by
  have : ∀ s : Loader B, (s.iterator = none ∨ s.iterator = some []) → (getMinibatch passes s).result = .error .otherError ∧
      (getMinibatch passes s).state.iterator = some [] := by
    rintro ⟨it, k⟩ (rfl | rfl) <;> simp [getMinibatch, ensureIterator, h]
  have hs : (after passes m).iterator = none ∨ (after passes m).iterator = some [] := by
    induction m with
    | zero => left; rfl
    | succ m ih => right; exact (this _ ih).2
  exact (this _ hs).1

example : ∀ k, (fun k => [k, k + 1] : ℕ → List ℕ) k ≠ [] := by intro k; simp
example : ∃ str, IsStream (fun k => [2 * k, 2 * k + 1]) str := exists_stream _ (by simp)

/-- **C66 (partial).** With actors, every actor goes through its own stream: the piece number `i`, given to actor `a` after that actor has scored `k` other pieces of this evaluation, is scored by the
averages over the minibatches number `m a + k * n`, ..., of the stream of `a`, where `m a` is the number of minibatches the actor has consumed before. The pieces of other actors have no influence. -/
theorem C66_actors_partial [Field K] (passes : ℕ → ℕ → List B) (hne : ∀ a k, passes a k ≠ []) (str : ℕ → ℕ → B) (hstr : ∀ a, IsStream (passes a) (str a)) (loss : S → B → K)
    (n : ℕ) (pieces : List (ℕ × List S)) (m : ℕ → ℕ) :
    ∃ fs, evaluatePieces passes loss n pieces (fun a => after (passes a) (m a)) = .ok fs ∧ fs.length = pieces.length ∧
      ∀ (i a : ℕ) (nets : List S), pieces[i]? = some (a, nets) →
        fs[i]? = some (nets.map fun net => average loss net (str a) (m a + ((pieces.take i).countP fun p => p.1 == a) * n) n) := by
  induction pieces generalizing m with
  | nil => exact ⟨[], rfl, rfl, by simp⟩
  | cons p pieces ih =>
    obtain ⟨b, ns⟩ := p
    have hb := C66_common_partial (passes b) (hne b) (str b) (hstr b) loss n ns (m b)
    have hl : (fun a => if a = b then after (passes b) (m b + n) else after (passes a) (m a)) = fun a => after (passes a) (if a = b then m b + n else m a) := by
      funext a
      by_cases h : a = b
      · subst h; simp
      · simp [h]
    obtain ⟨fs, h1, h2, h3⟩ := ih (fun a => if a = b then m b + n else m a)
    refine ⟨(ns.map fun net => average loss net (str b) (m b) n) :: fs, ?_, by simp [h2], ?_⟩
    · simp only [evaluatePieces, hb, Except.bind]
      rw [hl, h1]
    · intro i a nets hi
      cases i with
      | zero =>
        simp only [List.getElem?_cons_zero, Option.some.injEq, Prod.mk.injEq] at hi
        obtain ⟨rfl, rfl⟩ := hi
        simp
      | succ i =>
        simp only [List.getElem?_cons_succ] at hi ⊢
        rw [h3 i a nets hi, List.take_succ_cons, List.countP_cons]
        by_cases h : a = b
        · subst h
          simp only [if_true, beq_self_eq_true]
          congr 2
          funext net
          congr 1
          ring
        · have h' : (b == a) = false := by simpa using fun e => h e.symm
          simp [h, h']

example : (evaluatePieces (fun actor _ => if actor = 0 then [10, 20] else [20, 10]) (fun (_ : Unit) (b : ℕ) => (b : ℚ)) 1 [(0, [()]), (1, [()]), (0, [()])] (fun _ => initial)).toOption =
    some [[10], [20], [20]] := by
  simp [evaluatePieces, evaluateBatch, getMinibatches, getMinibatch, ensureIterator, initial, Except.bind, Except.map, accumulate, Except.toOption]

/-! ### Where the property fails -/

/-- **C66 violated** (with actors). Two actors with loaders shuffled differently score the two solutions of one evaluation on different minibatches although `common_minibatch` is set: identical
networks get different losses. -/
theorem C66_violated_actors :
    (evaluatePieces (fun actor _ => if actor = 0 then [10, 20] else [20, 10]) (fun (_ : Unit) (b : ℕ) => (b : ℚ)) 1 [(0, [()]), (1, [()])] (fun _ => initial)).toOption =
      some [[10], [20]] := by
  simp [evaluatePieces, evaluateBatch, getMinibatches, getMinibatch, ensureIterator, initial, Except.bind, Except.map, accumulate, Except.toOption]

end EvoTorch.SupervisedNE
