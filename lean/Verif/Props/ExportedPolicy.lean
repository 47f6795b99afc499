import Verif.Model.ExportedPolicy
import Mathlib.Algebra.Order.Ring.Rat
/-!
C107: the policies exported by `to_policy` act as the problem acts when it evaluates the solution.
-/
namespace EvoTorch.ExportedPolicy
open EvoTorch Recurrent RunningNorm

variable {K : Type} [Field K] [LinearOrder K] {d a : Nat} {H : Type}

/-! ### Specification -/

/-- How the output of an exported policy is used: the vector is the action; in a discrete environment the position of its largest number is. -/
def read (argmax : Act K a → Nat) : Space K a → Act K a → Sent K a
  | .discrete, v => .choice (argmax v)
  | .box _ _, v => .vector v

/-- The exported policy `m` acts as `acts` does: in an episode (from the initial hidden state) with observations `xs`, for all `xs`. -/
def ActsAs (argmax : Act K a → Nat) (space : Space K a) (m : Net K d a H) (acts : List (Obs K d) → Except PyErr (List (Sent K a))) : Prop :=
  ∀ xs, (calls m reset xs).map (List.map (read argmax space)) = acts xs

/-- The statistics which a `GymNE` can have: it begins with none, shows observations to them, and merges statistics of actors into them. -/
inductive Reached : Stat K d → Prop where
  | new : Reached none
  | update {s s' : Stat K d} {x : Obs K d} : Reached s → s.update x = .ok s' → Reached s'
  | merge {s o s' : Stat K d} : Reached s → Reached o → s.merge o = .ok s' → Reached s'

/-- Statistics of at least one observation. -/
def HasData (s : RN K d) : Prop := 0 < s.count ∧ s.sum.isSome ∧ s.sumSq.isSome

/-- The network returns tensors or tuples. -/
def Proper (net : Net K d a H) : Prop := ∀ x h y, net x h ≠ .ok (.other y)

/-! ### Proofs -/

theorem absorb_hasData {s s' : RN K d} {a b : Obs K d} {n : Nat} (hn : 0 < n) (h : s.absorb a b n = .ok s') : HasData s' := by
  unfold RN.absorb at h
  split at h
  · cases h; exact ⟨hn, rfl, rfl⟩
  · split at h
    · rename_i h1 h2
      simp only [RN.hasData, Bool.and_eq_true, decide_eq_true_eq] at h2
      cases h
      refine ⟨?_, ?_, ?_⟩
      · change 0 < s.count + n
        omega
      · simpa using h2.1.1
      · simpa using h2.1.2
    · cases h

theorem Reached.good {s : Stat K d} (h : Reached s) : ∀ r, s = some r → HasData r := by
  induction h with
  | new => intro r h; cases h
  | @update s s' x hs hu ih =>
    rintro r rfl
    unfold Stat.update at hu
    cases hr : (s.getD RN.empty).update (.single x) none with
    | error e => rw [hr] at hu; cases hu
    | ok t =>
      rw [hr] at hu
      cases hu
      simp only [RN.update] at hr
      exact absorb_hasData Nat.one_pos (by simpa using hr)
  | @merge s o s' hs ho hm ihs iho =>
    rintro r rfl
    unfold Stat.merge at hm
    split at hm
    · cases hm; exact ihs r rfl
    · rename_i hc
      cases s with
      | none => cases hm; exact iho r rfl
      | some u =>
        cases o with
        | none => exact absurd rfl hc
        | some v =>
          obtain ⟨hv, hv1, hv2⟩ := iho v rfl
          simp only at hm
          cases hr : u.merge v none true with
          | error e => rw [hr] at hm; cases hm
          | ok t =>
            rw [hr] at hm
            cases hm
            obtain ⟨a, ha⟩ := Option.isSome_iff_exists.1 hv1
            obtain ⟨b, hb⟩ := Option.isSome_iff_exists.1 hv2
            unfold RN.merge at hr
            rw [if_neg (by omega)] at hr
            simp only [ha, hb, Option.isSome_none, Bool.not_true, Bool.false_eq_true, if_false] at hr
            exact absorb_hasData hv hr

/-- With data there is a layer, and it normalises as the statistics do. -/
theorem toLayer_ok (c : Norm K d) {s : RN K d} (h : HasData s) :
    ∃ l, toLayer c s = .ok l ∧ ∀ x, s.normalize (c.stdev s) c.lb c.ub x = .ok (l.forward x) := by
  obtain ⟨h1, h2, -⟩ := h
  obtain ⟨v, hv⟩ := Option.isSome_iff_exists.1 h2
  refine ⟨⟨fun j => divCount (v j) s.count, c.stdev s, c.lb, c.ub⟩, ?_, fun x => ?_⟩
  · simp [toLayer, RN.mean, hv, Except.map]
  · rw [RN.normalize, if_neg (by omega)]
    simp only [RN.mean, hv, Except.map, Option.elim]
    rfl

/-- Unbounded clipping. -/
theorem max2_ninf (x : Flt K) : Flt.max2 x .ninf = x := by cases x <;> simp [Flt.max2, Flt.lt]
theorem min2_pinf (x : Flt K) : Flt.min2 x .pinf = x := by cases x <;> simp [Flt.min2, Flt.lt]

theorem clip_unbounded {low high : Act K a} (h : specifyBounds low high = false) (v : Act K a) : clip low high v = v := by
  simp only [specifyBounds, Bool.not_eq_false', Bool.and_eq_true, decide_eq_true_eq] at h
  funext j
  have h1 : low j = .ninf := by have := h.1 j; revert this; cases low j <;> simp [isNinf]
  have h2 : high j = .pinf := by have := h.2 j; revert this; cases high j <;> simp [isPinf]
  rw [clip, h1, h2, max2_ninf, min2_pinf]

/-- One step of a network whose input is prepared by `f`, which may be wrapped by a module (`W`) that prepares it. -/
theorem forward_obsNorm (l : Layer K d) (net : Net K d a H) (hidden : Option H) (x : Obs K d) :
    forward (obsNorm l net) hidden x = forward net hidden (l.forward x) := by
  unfold forward obsNorm
  cases net (l.forward x) hidden with
  | error e => rfl
  | ok r => cases r <;> rfl

theorem forward_actClip (low high : Act K a) (net : Net K d a H) (hn : Proper net) (hidden : Option H) (x : Obs K d) :
    forward (actClip low high net) hidden x = ⟨(forward net hidden x).state, (forward net hidden x).result.map (clip low high)⟩ := by
  unfold forward actClip
  cases hr : net x hidden with
  | error e => rfl
  | ok r =>
    cases r with
    | other y => exact absurd hr (hn x hidden y)
    | _ => rfl

theorem proper_obsNorm (l : Layer K d) {net : Net K d a H} (hn : Proper net) : Proper (obsNorm l net) := by
  intro x h y he
  unfold obsNorm at he
  cases hr : net (l.forward x) h with
  | error e => rw [hr] at he; cases he
  | ok r =>
    rw [hr] at he
    cases r with
    | other z => exact hn _ _ _ hr
    | _ => cases he

/-- From one step to all. -/
theorem actsAs_of_step (argmax : Act K a → Nat) (space : Space K a) (m : Net K d a H) (act : Option H → Obs K d → Outcome (Option H) (Sent K a))
    (acts : Option H → List (Obs K d) → Except PyErr (List (Sent K a))) (h0 : ∀ s, acts s [] = .ok [])
    (h1 : ∀ s x xs, acts s (x :: xs) = (act s x).result.bind fun y => (acts (act s x).state xs).bind fun ys => .ok (y :: ys))
    (hs : ∀ s x, (forward m s x).state = (act s x).state ∧ (forward m s x).result.map (read argmax space) = (act s x).result) :
    ActsAs argmax space m (acts reset) := by
  intro xs
  suffices h : ∀ s, (calls m s xs).map (List.map (read argmax space)) = acts s xs from h _
  induction xs with
  | nil => intro s; rw [h0]; rfl
  | cons x xs ih =>
    intro s
    rw [h1, ← (hs s x).2, ← (hs s x).1, ← ih]
    simp only [calls]
    cases (forward m s x).result with
    | error e => rfl
    | ok y =>
      simp only [Except.bind, Except.map]
      cases calls m (forward m s x).state xs <;> rfl

/-- **C107 (GymNE).** For the statistics which a GymNE can have, any action space and any network (recurrent or not): `to_policy` succeeds, and in every episode the exported policy,
kept stateful, gives the actions which the environment receives when the problem itself runs the solution with the same statistics (`update_stats=False`) and without action
noise: the observations are normalised and the actions are clipped in the same way. (Partial: the other parts of the property are violated for some arguments, see below.) -/
theorem C107_gym_partial (p : Gym K d a) (argmax : Act K a → Nat) (net : Net K d a H) (hs : Reached p.stats) (hn : Proper net) :
    ∃ m, p.toPolicy true net = .ok m ∧ ActsAs argmax p.space m (p.acts argmax net reset) := by
  -- the network with normalisation
  have key : ∃ m, p.withNorm net = Except.ok m ∧ Proper m ∧ ∀ s x, ∃ x', p.normalize x = .ok x' ∧ forward m s x = forward net s x' := by
    cases ho : p.obsnorm with
    | false => exact ⟨net, by simp [Gym.withNorm, ho], hn, fun s x => ⟨x, by simp [Gym.normalize, ho], rfl⟩⟩
    | true =>
      cases hst : p.stats with
      | none => exact ⟨net, by simp [Gym.withNorm, hst, Stat.count], hn, fun s x => ⟨x, by simp [Gym.normalize, hst], rfl⟩⟩
      | some st =>
        have hd := hs.good st hst
        obtain ⟨l, hl, hl'⟩ := toLayer_ok p.norm hd
        refine ⟨obsNorm l net, ?_, proper_obsNorm l hn, fun s x => ⟨l.forward x, ?_, forward_obsNorm l net s x⟩⟩
        · rw [Gym.withNorm, if_pos (by simp [Stat.count, hd.1, ho, hst])]
          simp [hst, hl, Except.map]
        · simp only [Gym.normalize, ho, hst, if_true]
          exact hl' x
  obtain ⟨m, hm, hpm, hf⟩ := key
  cases hsp : p.space with
  | discrete =>
    refine ⟨m, ?_, ?_⟩
    · simp only [Gym.toPolicy, hm, hsp]; rfl
    · refine actsAs_of_step argmax _ m (p.act argmax net) (p.acts argmax net) (fun _ => rfl) (fun _ _ _ => rfl) fun s x => ?_
      obtain ⟨x', h1, h2⟩ := hf s x
      simp only [Gym.act, h1, h2, hsp]
      exact ⟨trivial, rfl⟩
  | box low high =>
    refine ⟨actClip low high m, ?_, ?_⟩
    · simp only [Gym.toPolicy, hm, hsp]; rfl
    · refine actsAs_of_step argmax _ _ (p.act argmax net) (p.acts argmax net) (fun _ => rfl) (fun _ _ _ => rfl) fun s x => ?_
      obtain ⟨x', h1, h2⟩ := hf s x
      rw [forward_actClip low high m hpm]
      simp only [Gym.act, h1, h2, hsp]
      refine ⟨trivial, ?_⟩
      cases (forward net s x').result <;> rfl

/-- **C107 (VecGymNE).** The same for a VecGymNE, whatever the bounds of the actions (finite, infinite, or infinite for some actions): if it normalises observations and has statistics
with data, the exported policy gives the actions which the environment receives in steps of the evaluation in which the observations were normalised with these statistics; if it does
not normalise, in all steps. (Partial: see above.) -/
theorem C107_vec_partial (p : Vec K d a) (argmax : Act K a → Nat) (net : Net K d a H) (hs : p.obsnorm = true → ∃ s, p.stats = some s ∧ HasData s) (hn : Proper net) :
    ∃ m, p.toPolicy net = .ok m ∧ ActsAs argmax p.space m (p.acts argmax net reset) := by
  have key : ∃ m, p.withNorm net = Except.ok m ∧ Proper m ∧ ∀ s x, ∃ x', p.normalize x = .ok x' ∧ forward m s x = forward net s x' := by
    cases ho : p.obsnorm with
    | false => exact ⟨net, by simp [Vec.withNorm, ho], hn, fun s x => ⟨x, by simp [Vec.normalize, ho], rfl⟩⟩
    | true =>
      obtain ⟨st, hst, hd⟩ := hs ho
      obtain ⟨l, hl, hl'⟩ := toLayer_ok p.norm hd
      refine ⟨obsNorm l net, ?_, proper_obsNorm l hn, fun s x => ⟨l.forward x, ?_, forward_obsNorm l net s x⟩⟩
      · simp [Vec.withNorm, ho, hst, hl, Except.map]
      · simp only [Vec.normalize, ho, hst, if_true]
        exact hl' x
  obtain ⟨m, hm, hpm, hf⟩ := key
  cases hb : specifyBounds p.space.wrapped.1 p.space.wrapped.2 with
  | false =>
    refine ⟨m, ?_, ?_⟩
    · simp only [Vec.toPolicy, hm, hb]; rfl
    · refine actsAs_of_step argmax _ m (p.act argmax net) (p.acts argmax net) (fun _ => rfl) (fun _ _ _ => rfl) fun s x => ?_
      obtain ⟨x', h1, h2⟩ := hf s x
      simp only [Vec.act, h1, h2]
      refine ⟨trivial, ?_⟩
      cases hsp : p.space with
      | discrete => rfl
      | box low high =>
        have : clip low high = id := by
          funext v; exact clip_unbounded (by simpa [Space.wrapped, hsp] using hb) v
        cases (forward net s x').result with
        | error e => rfl
        | ok y => simp [Except.map, read, send, this]
  | true =>
    cases hsp : p.space with
    | discrete => simp [hsp, Space.wrapped, specifyBounds, isNinf, isPinf] at hb
    | box low high =>
      rw [hsp] at hb
      refine ⟨actClip low high m, ?_, ?_⟩
      · simp only [Vec.toPolicy, hm, hb, hsp]; rfl
      · refine actsAs_of_step argmax _ _ (p.act argmax net) (p.acts argmax net) (fun _ => rfl) (fun _ _ _ => rfl) fun s x => ?_
        obtain ⟨x', h1, h2⟩ := hf s x
        rw [forward_actClip low high m hpm]
        simp only [Vec.act, h1, h2, hsp]
        refine ⟨trivial, ?_⟩
        cases (forward net s x').result <;> rfl

/-- **C107 (saved solutions).** Once there are statistics, or without normalisation, `save_solution` of a GymNE saves that policy. -/
theorem C107_save_partial (p : Gym K d a) (argmax : Act K a → Nat) (net : Net K d a H) (hs : Reached p.stats) (hn : Proper net) (hd : p.obsnorm = true → p.stats ≠ none) :
    ∃ m o, p.save net = .ok (m, o) ∧ ActsAs argmax p.space m (p.acts argmax net reset) := by
  obtain ⟨m, hm, ha⟩ := C107_gym_partial p argmax net hs hn
  cases ho : p.obsnorm with
  | false => exact ⟨m, none, by simp only [Gym.save, hm, ho]; rfl, ha⟩
  | true =>
    cases hst : p.stats with
    | none => exact absurd hst (hd ho)
    | some st =>
      obtain ⟨h1, h2, -⟩ := hs.good st hst
      obtain ⟨v, hv⟩ := Option.isSome_iff_exists.1 h2
      exact ⟨m, some fun j => divCount (v j) st.count, by simp only [Gym.save, hm, ho, hst, RN.mean, hv]; rfl, ha⟩

/-- **C107, violated.** A GymNE which normalises observations and has not seen any yet: `to_policy` exports a policy, but `save_solution` raises an AttributeError. -/
theorem C107_violated_save (p : Gym K d a) (net : Net K d a H) (ho : p.obsnorm = true) (hst : p.stats = none) :
    (∃ m, p.toPolicy true net = .ok m) ∧ p.save net = .error .attributeError := by
  have : ∃ m, p.toPolicy true net = .ok m := by
    cases hsp : p.space with
    | discrete => exact ⟨net, by simp [Gym.toPolicy, Gym.withNorm, hst, hsp, Stat.count, Except.bind]⟩
    | box low high => exact ⟨actClip low high net, by simp [Gym.toPolicy, Gym.withNorm, hst, hsp, Stat.count, Except.bind]⟩
  refine ⟨this, ?_⟩
  obtain ⟨m, hm⟩ := this
  simp only [Gym.save, hm, ho, hst]
  rfl

/-- **C107 (memory).** Training the network which a GymNE exported, or which a VecGymNE exported for a Solution, for a tensor on another device or for a plain sequence, changes no vector of
the caller. -/
theorem C107_memory_partial (m : Mem K) (g : Given K) (v : List K) (i : Nat) (hi : i < m.next) :
    (train (exportGym m g) v).heap i = m.heap i ∧
    ((∀ j, g ≠ .cpuTensor j ∧ g ≠ .numpy j) → (train (exportVec m g) v).heap i = m.heap i) := by
  have h : ∀ w, (train (m.alloc w) v).heap i = m.heap i := by
    intro w
    have : i ≠ m.next := by omega
    simp [train, Mem.alloc, this]
  constructor
  · cases g <;> exact h _
  · intro hg
    cases g with
    | cpuTensor j => exact absurd rfl (hg j).1
    | numpy j => exact absurd rfl (hg j).2
    | _ => exact h _

/-- **C107 (parameters).** The exported network has the parameters of the vector. -/
theorem C107_memory_parameters (m : Mem K) (g : Given K) :
    let w := match g with
      | .cpuTensor i | .otherTensor i | .numpy i | .solution i => m.heap i
      | .sequence v => v
    (exportGym m g).1.heap (exportGym m g).2 = w ∧ (exportVec m g).1.heap (exportVec m g).2 = w := by
  cases g <;> simp [exportGym, exportVec, Mem.alloc]

/-- **C107, violated.** The parameters of the network which a VecGymNE exports for a tensor on the cpu, or for a NumPy array, are that tensor: training the network changes it. -/
theorem C107_violated_memory (m : Mem K) (i : Nat) (v : List K) (hv : v ≠ m.heap i) :
    (train (exportVec m (.cpuTensor i)) v).heap i ≠ m.heap i ∧ (train (exportVec m (.numpy i)) v).heap i ≠ m.heap i := by
  constructor <;> simpa [train, exportVec] using hv

/-! ### Instances -/

/-- A recurrent network: the output is the sum of the observations. -/
def sumNet : Net ℚ 1 1 (Flt ℚ) := fun x h => .ok (.pair (fun _ => Flt.add (h.getD (.fin 0)) (x 0)) (some (Flt.add (h.getD (.fin 0)) (x 0))))

/-- Statistics of the observations 1 and 3: mean 2. -/
def twoObs : RN ℚ 1 := { sum := some fun _ => .fin 4, sumSq := some fun _ => .fin 10, count := 2 }

def gymExample : Gym ℚ 1 1 :=
  { obsnorm := true, stats := some twoObs, norm := ⟨fun _ _ => 1, none, none⟩, space := .box (fun _ => .fin (-1)) fun _ => .pinf }

/-- The numbers of the actions. -/
def show' : Except PyErr (List (Sent ℚ 1)) → List ℚ
  | .ok l => l.map fun s => match s with
    | .vector v => match v 0 with
      | .fin q => q
      | _ => 1000
    | .choice i => i
  | .error _ => []

/-- Normalised observations 3, -1, -5; their sums 3, 2, -3; clipped to at least -1. -/
example : show' (gymExample.acts (fun _ => 0) sumNet reset [fun _ => .fin 5, fun _ => .fin 1, fun _ => .fin (-3)]) = [3, 2, -1] := by decide +kernel

example : Proper sumNet := by intro x h y he; cases he

example : Reached (some { sum := some fun _ => .fin 4, sumSq := some fun _ => .fin 16, count := 1 } : Stat ℚ 1) := by
  refine .update (x := fun _ => .fin 4) .new ?_
  have : (sqObs fun _ => Flt.fin (4 : ℚ)) = (fun _ => Flt.fin (16 : ℚ) : Obs ℚ 1) := by
    funext j; simp only [sqObs, Flt.mul]; norm_num
  simp [Stat.update, RN.update, RN.absorb, RN.empty, RN.hasNoData, Except.map, this]

example : HasData twoObs := ⟨by decide, rfl, rfl⟩

end EvoTorch.ExportedPolicy
