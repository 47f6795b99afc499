import Verif.Props.BestWorst
import Verif.Model.BatchHistory
import Verif.Model.CList
import Verif.Model.CMemory
import Verif.Props.DistributionObjects
import Verif.Model.Episodes
import Verif.Model.ExportedPolicy
import Verif.Model.FunctionalCalls
import Verif.Model.Heap
import Verif.Model.Hook
import Verif.Model.ImmutableContainers
import Verif.Model.Optimizers
import Mathlib.Tactic.Ring
/-! Refused calls and boundary cases of C01, C05, C11, C13, C38, C53, C64, C107, C109, C110 and C112: which exception, in exactly which cases, and what is unchanged. -/

namespace EvoTorch.BestWorst
variable {V K : Type} [LinearOrder K]

theorem champ_none {s : Sense} {A : Args K} (hA : ArgSpec A) (batch : List (Row V K 1)) (hne : batch ≠ []) (hn : ∀ r ∈ batch, (r.evals 0).isNan = false) :
    (champ s 0 batch (argbest A s (column batch 0)) (s.bad, none)).2 = none ↔ ∀ r ∈ batch, r.evals 0 = s.bad := by
  have hcol : ∀ x ∈ column batch 0, x.isNan = false := by
    intro x hx
    obtain ⟨r, hr, rfl⟩ := List.mem_map.1 hx
    exact hn r hr
  have hcne : column batch 0 ≠ [] := by simpa [column] using hne
  have hlt : argbest A s (column batch 0) < batch.length := by
    have : argbest A s (column batch 0) < (column batch 0).length := by
      cases s
      · exact hA.min_mem _ hcne
      · exact hA.max_mem _ hcne
    simpa [column] using this
  have hget := List.getElem?_eq_getElem hlt
  set q := batch[argbest A s (column batch 0)] with hq
  have hqm : q ∈ batch := List.getElem_mem hlt
  have hbest : ∀ r ∈ batch, firstIsBetter s (r.evals 0) (q.evals 0) = false := by
    intro r hr
    have hc := getElem?_col batch 0 _ q hget
    have hm : r.evals 0 ∈ column batch 0 := List.mem_map.2 ⟨r, hr, rfl⟩
    cases s
    · exact hA.min_le _ hcol _ hc _ hm
    · exact hA.max_ge _ hcol _ hc _ hm
  simp only [champ, hget]
  have hbad : ∀ x : Flt K, x.isNan = false → (firstIsBetter s x s.bad = false ↔ x = s.bad) := by
    intro x hx
    cases s <;> cases x <;> simp_all [firstIsBetter, Sense.bad, Flt.lt, Flt.isNan]
  have htrans : firstIsBetter s (q.evals 0) s.bad = false → ∀ r ∈ batch, r.evals 0 = s.bad := by
    intro h r hr
    have h1 := (hbad _ (hn q hqm)).1 h
    have h2 := hbest r hr
    rw [h1] at h2
    exact (hbad _ (hn r hr)).1 h2
  cases h : firstIsBetter s (q.evals 0) s.bad
  · simp only [Bool.false_eq_true, if_false, true_iff]
    exact htrans h
  · simp only [if_true, reduceCtorEq, false_iff]
    intro hall
    rw [hall q hqm, (hbad _ (by cases s <;> rfl)).2 rfl] at h
    exact absurd h (by simp)

/-- C11: the first (non-empty) evaluated batch of a single-objective problem makes `evaluate` raise exactly when it holds a NaN, or only plus infinities, or only minus infinities; the
exception is then an AttributeError. -/
theorem C11_first_batch_raises_iff {A : Args K} (hA : ArgSpec A) (senses : Fin 1 → Sense) (batch : List (Row V K 1)) (hne : batch ≠ []) :
    let raises := (∃ r ∈ batch, (r.evals 0).isNan = true) ∨ (∀ r ∈ batch, r.evals 0 = .pinf) ∨ ∀ r ∈ batch, r.evals 0 = .ninf
    (raises → (getBestAndWorst A senses none batch).result = .error .attributeError) ∧
    (¬ raises → (getBestAndWorst A senses none batch).result = .ok ()) := by
  intro raises
  by_cases hnan : ∃ r ∈ batch, (r.evals 0).isNan = true
  · exact ⟨fun _ => C11_first_batch_with_nan_raises hA senses batch hnan, fun h => absurd (Or.inl hnan) h⟩
  · have hn : ∀ r ∈ batch, (r.evals 0).isNan = false := by
      intro r hr
      by_contra hc
      exact hnan ⟨r, hr, by simpa using hc⟩
    have hb := congrArg Prod.snd (updateTrack_best A (senses 0) 0 batch (initTrack (senses 0)))
    have hw := congrArg Prod.snd (updateTrack_worst A (senses 0) 0 batch (initTrack (senses 0)))
    have e1 : ((initTrack (V := V) (K := K) (m := 1) (senses 0)).bestEval, (initTrack (V := V) (K := K) (m := 1) (senses 0)).best) = ((senses 0).bad, none) := by
      cases senses 0 <;> rfl
    have e2 : ((initTrack (V := V) (K := K) (m := 1) (senses 0)).worstEval, (initTrack (V := V) (K := K) (m := 1) (senses 0)).worst) = ((senses 0).flip.bad, none) := by
      cases senses 0 <;> rfl
    rw [e1] at hb
    rw [e2] at hw
    have hb' := champ_none (s := senses 0) hA batch hne hn
    have hw' := champ_none (s := (senses 0).flip) hA batch hne hn
    rw [← hb] at hb'
    rw [← hw] at hw'
    have hres : (getBestAndWorst A senses none batch).result =
        if (updateTrack A (senses 0) 0 batch (initTrack (senses 0))).best.isNone || (updateTrack A (senses 0) 0 batch (initTrack (senses 0))).worst.isNone then .error .attributeError else .ok () := by
      simp only [getBestAndWorst, if_neg hne, Option.getD_none, dif_pos]
      rfl
    have hr : raises ↔ (∀ r ∈ batch, r.evals 0 = (senses 0).bad) ∨ ∀ r ∈ batch, r.evals 0 = (senses 0).flip.bad := by
      simp only [raises, hnan, false_or]
      cases senses 0
      · exact Iff.rfl
      · exact or_comm
    rw [hres, hr, ← hb', ← hw']
    simp only [Option.isNone_iff_eq_none, Bool.or_eq_true]
    exact ⟨fun h => if_pos h, fun h => if_neg h⟩

example : (getBestAndWorst (V := Nat) (m := 1) refArgs (fun _ => .max) none [⟨0, fun _ => .pinf⟩, ⟨1, fun _ => (.pinf : Flt Int)⟩]).result = .error .attributeError ∧
    (getBestAndWorst (V := Nat) (m := 1) refArgs (fun _ => .max) none [⟨0, fun _ => .pinf⟩, ⟨1, fun _ => (.fin 3 : Flt Int)⟩]).result = .ok () := ⟨rfl, rfl⟩

end EvoTorch.BestWorst

namespace EvoTorch.BatchHistory
variable {V E : Type}

/-- C13: `set_values` with a wrong number of values is a TypeError, and changes nothing. -/
theorem C13_refused_set_values (f : V → List (Option E)) (m : Nat) (st : State V E) (b : Nat) (pos : List Nat) (vals : List (Option V)) (isObject : Bool) (as : List Nat)
    (ha : addrs st b pos = some as) (hl : as.length ≠ vals.length) :
    (exec f m st (.setValues b pos vals isObject)).state = st ∧ (exec f m st (.setValues b pos vals isObject)).result = .error .typeError := by
  simp only [exec, ha, hl, ne_eq, not_false_eq_true, if_true]
  exact ⟨trivial, trivial⟩

example : addrs (V := Nat) (E := Nat) ⟨fun _ => ⟨0, []⟩, 2, [[0, 1]]⟩ 0 [0] = some [0] := rfl

end EvoTorch.BatchHistory

namespace EvoTorch.CList
variable {α : Type}

/-- C01: if a selected list is full, `append_` is refused with an IndexError and changes nothing, whatever the shape of the value. -/
theorem C01_full_bad_shape {B : Nat} (L : Int) (c : Batch B α) (w : Fin B → Bool) (h : ∃ i, isFull L (c i) = true ∧ w i = true) :
    (appendBadShape L c w).state = c ∧ (appendBadShape L c w).result = .error .indexError := by
  have : anyB (fun i => isFull L (c i) && w i) = true := by
    obtain ⟨i, h1, h2⟩ := h
    simp only [anyB, List.any_eq_true]
    exact ⟨i, List.mem_finRange i, by simp [h1, h2]⟩
  simp [appendBadShape, this]

end EvoTorch.CList

namespace EvoTorch.CMemory
open EvoTorch.Spec.Memory (Key)
variable {B d : Nat}

/-- C05: circular addition to a boolean memory is a KeyError if the key of a selected item is invalid, otherwise a ValueError. Without a mask all items are selected. -/
theorem C05_bool_circular (cfg : Cfg d) (m : Mem B d Bool) (key : Fin B → Key d) (w : Option (Fin B → Bool)) :
    addCircularBool cfg m key w = ⟨m, .error (if badKey cfg key (fun i => (w.map fun f => f i).getD true) then .keyError else .valueError)⟩ := by
  have : (fun i => (w.map fun f => f i).getD true) = w.getD fun _ => true := by cases w <;> rfl
  rw [this, addCircularBool]
  split <;> simp

end EvoTorch.CMemory

namespace EvoTorch.DistributionObjects
variable {DT DV A : Type} [DecidableEq DT] [DecidableEq DV]

/-- C109: a modified copy of an `ExpGaussian` has the dtype and the device asked for, and those of the original if none are. -/
theorem C109_exp_modified_copy_labels (conv : DT → DT → A → A) (lib : Lib A) (d d' : Dist DT DV A) (hl : Labelled d) (dt : Option DT) (dv : Option DV) (news : Params DT DV A)
    (h : expModifiedCopy conv lib d dt dv news = .ok d') : d'.dtype = dt.or d.dtype ∧ d'.device = dv.or d.device := by
  obtain ⟨x, hx⟩ := Option.isSome_iff_exists.1 hl.1
  obtain ⟨y, hy⟩ := Option.isSome_iff_exists.1 hl.2
  have key : ∀ (a : DT) (b : DV) ps, (expInit conv lib none (some a) (some b) ps).result = .ok d' → d'.dtype = some a ∧ d'.device = some b := by
    intro a b ps h
    unfold expInit at h
    split at h
    · cases h
    · split at h
      · cases h
      · rename_i n hn ps' hp
        simp only [expRest] at h
        cases h1 : (shapeOf ps' "sigma").bind two with
        | error e => rw [h1] at h; simp [Except.bind] at h
        | ok s =>
          rw [h1] at h
          simp only [checkLength, Except.bind] at h
          split at h
          · cases h
          · obtain ⟨fdt, fdv, _, _, _, rfl⟩ := baseInit_ok conv _ _ _ _ _ d' h
            exact ⟨rfl, rfl⟩
  unfold expModifiedCopy at h
  rw [hx, hy] at h ⊢
  cases dt <;> cases dv <;> exact key _ _ _ h

example : Labelled dist1 := ⟨rfl, rfl⟩

end EvoTorch.DistributionObjects

namespace EvoTorch.Episodes
variable {K : Type} [Field K]

/-- C64: running a solution for no episode at all is a TypeError. -/
theorem C64_no_episodes (s : Option (Schedule K)) (dec : K) (l : Option Nat) [DecidableEq K] : run s dec l [] = .error .typeError := rfl

end EvoTorch.Episodes

namespace EvoTorch.ExportedPolicy
open Recurrent RunningNorm
variable {K : Type} {d a : Nat} {H : Type}

/-- C107: two networks exported one after the other by a GymNE have separate parameters: training the second changes nothing of the first. -/
theorem C107_exports_are_separate (m : Mem K) (g g' : Given K) (v : List K) :
    (exportGym m g).2 ≠ (exportGym (exportGym m g).1 g').2 ∧
    (train (exportGym (exportGym m g).1 g') v).heap (exportGym m g).2 = (exportGym m g).1.heap (exportGym m g).2 := by
  have h : ∀ w w', (m.alloc w).2 ≠ ((m.alloc w).1.alloc w').2 ∧ (train ((m.alloc w).1.alloc w') v).heap (m.alloc w).2 = (m.alloc w).1.heap (m.alloc w).2 := by
    intro w w'
    have h1 : m.next ≠ m.next + 1 := by omega
    refine ⟨h1, ?_⟩
    simp [train, Mem.alloc]
  cases g <;> cases g' <;> exact h _ _

/-- C107: a network whose output is neither a tensor nor a pair is refused with a TypeError by the exported policy if there are bounds for the actions. -/
theorem C107_clipped_other [Field K] [LinearOrder K] (low high : Act K a) (net : Net K d a H) (x : Obs K d) (h : Option H) (y : Nat) (r : Res (Act K a) H) (hr : net x h = .ok r) :
    (∀ z, r = .other z → actClip low high net x h = .error .typeError) ∧ (∀ z, r = .tuple z → actClip low high net x h = .error .valueError) := by
  refine ⟨fun z hz => ?_, fun z hz => ?_⟩ <;> simp [actClip, hr, hz, Except.bind]

end EvoTorch.ExportedPolicy

namespace EvoTorch.FunctionalCalls

/-- C110: a functional sampler needs at least one parameter which is given at the call. -/
theorem C110_sampler_init (required : List String) : samplerInit required = (if required = [] then .error .typeError else .ok required) := by
  cases required <;> simp [samplerInit]

end EvoTorch.FunctionalCalls

namespace EvoTorch.Heap
variable {A : Type}

/-- C36: `mutable_copy` of a mutable list, tuple, set or dictionary is a TypeError. -/
theorem C36_mutable_copy_refused (h0 : List (Node A)) (p : Nat) (nd : Node A) (hp : h0[p]? = some nd) (hk : nd.kind = .list ∨ nd.kind = .tuple ∨ nd.kind = .set ∨ ∃ ks, nd.kind = .dict ks) :
    mutableCopy h0 (.ref p) = .error .typeError := by
  have hf : mutAct nd.kind = .fail := by
    rcases hk with h | h | h | ⟨ks, h⟩ <;> rw [h] <;> rfl
  simp only [mutableCopy, call, copyVal, List.lookup_nil, hp, hf, Except.map]

end EvoTorch.Heap

namespace EvoTorch.Hook
variable {W K V : Type} [DecidableEq K]

/-- C38: `accumulate_dict` gives the dictionary of the call, an empty one for None, and refuses a list with a TypeError; `accumulate_sequence` the other way round. Both make the same
calls as the hook itself, and pass its exceptions on. -/
theorem C38_accumulate (h : Hook W K V) (args : List V) (kwargs : Dict K V) (w : W) :
    (accumulateDict h args kwargs w).1 = (call h args kwargs w).1 ∧ (accumulateSequence h args kwargs w).1 = (call h args kwargs w).1 ∧
    (∀ e, (call h args kwargs w).2 = .error e → (accumulateDict h args kwargs w).2 = .error e ∧ (accumulateSequence h args kwargs w).2 = .error e) ∧
    ((call h args kwargs w).2 = .ok .none → (accumulateDict h args kwargs w).2 = .ok [] ∧ (accumulateSequence h args kwargs w).2 = .ok []) ∧
    (∀ d, (call h args kwargs w).2 = .ok (.dict d) → (accumulateDict h args kwargs w).2 = .ok d ∧ (accumulateSequence h args kwargs w).2 = .error .typeError) ∧
    (∀ l, (call h args kwargs w).2 = .ok (.list l) → (accumulateSequence h args kwargs w).2 = .ok l ∧ (accumulateDict h args kwargs w).2 = .error .typeError) := by
  refine ⟨rfl, rfl, fun e he => ?_, fun he => ?_, fun d hd => ?_, fun l hl => ?_⟩ <;> simp [accumulateDict, accumulateSequence, *]

end EvoTorch.Hook

namespace EvoTorch.Immutable

/-- C112: a number, string or None is equal to another one only, or to a list of characters in immutable form (see `C112_violated_comparison`); never to another container. -/
theorem C112_atoms (a : Atom) (w : V) (h : cmp (.atom a) w = .ok true) : (∃ b, w = .atom b ∧ a.eq b = true) ∨ ∃ l, w = .immList l := by
  cases w with
  | atom b =>
    rw [cmp] at h
    exact .inl ⟨b, rfl, by simpa using h⟩
  | immList l => exact .inr ⟨l, rfl⟩
  | _ => simp [cmp] at h

/-- C112: tuples of different lengths are different keys. -/
theorem C112_tuple_keys (m : List V) (l : List Key) : m.length ≠ l.length → cmpKey (.tuple m) (.tuple l) = .ok false := by
  intro h
  rw [cmpKey, if_neg h]

theorem C112_tuple_key_of_same_length (m : List V) (l : List Key) : m.length = l.length → cmpKey (.tuple m) (.tuple l) = cmpKeys m l := by
  intro h
  rw [cmpKey, if_pos h]

end EvoTorch.Immutable

namespace EvoTorch.Optimizers
variable {d : Nat}

/-- C53: with only one of the learning rate and the maximum speed, the speed is twice the rate; the start is the given center at rest. Without both, the functional optimiser is refused. -/
theorem C53_clipup_defaults (x0 : Fin d → ℝ) (momentum : ℝ) (lr maxSpeed : Option ℝ) :
    (clipup x0 momentum none none = .error .valueError) ∧
    (∀ m, clipup x0 momentum none (some m) = clipup x0 momentum (some (m / 2)) (some m)) ∧
    (∀ r, clipup x0 momentum (some r) none = clipup x0 momentum (some r) (some (2 * r))) ∧
    ∀ s, clipup x0 momentum lr maxSpeed = .ok s → s.center = some x0 ∧ s.velocity = some 0 ∧ s.momentum = momentum ∧ (∀ r, lr = some r → s.lr = r) ∧ ∀ m, maxSpeed = some m → s.maxSpeed = m := by
  refine ⟨rfl, fun m => rfl, fun r => ?_, fun s h => ?_⟩
  · simp [clipup, mul_comm]
  · cases lr <;> cases maxSpeed <;> simp only [clipup, reduceCtorEq, Except.ok.injEq] at h <;> subst h <;> refine ⟨rfl, rfl, rfl, ?_, ?_⟩ <;> intro x hx <;> cases hx <;> rfl

end EvoTorch.Optimizers

namespace EvoTorch.Flt
variable {K : Type} [Field K] [LinearOrder K] [IsStrictOrderedRing K]

/-- The product of floats does not depend on the order, and its sign is the product of the signs. -/
theorem mul_comm_flt (a b : Flt K) : mul a b = mul b a := by
  cases a <;> cases b <;> simp [mul, mul_comm]

end EvoTorch.Flt
