import Verif.Model.Recurrent
import Mathlib.Data.List.Basic
/-! Property C63: hidden states are threaded per layer, and `StatefulModule` hides them. -/
namespace EvoTorch.Recurrent
open EvoTorch
variable {X H : Type}

/-! ### Specification: explicit state passing -/

/-- One layer in one time step: from its previous state (or none) and its input, its output and its new state (or none). -/
def layerStep (layer : Module X H) (s : Option H) (x : X) : Except PyErr (X × Option H) :=
  match layer x s with
  | .error e => .error e
  | .ok (.tensor y) => .ok (y, none)
  | .ok (.pair y s') => .ok (y, s')
  | .ok (.tuple _) => .error .valueError
  | .ok (.other _) => .error .typeError

/-- A stack of layers in one time step: each layer has its own state, and gets the output of the layer before it. -/
def stackStep : List (Module X H × Option H) → X → Except PyErr (X × List (Module X H × Option H))
  | [], x => .ok (x, [])
  | (l, s) :: rest, x =>
    match layerStep l s x with
    | .error e => .error e
    | .ok (y, s') =>
      match stackStep rest y with
      | .error e => .error e
      | .ok (z, rest') => .ok (z, (l, s') :: rest')

/-- A stack of layers over a sequence of inputs. -/
def stackRun : List (Module X H × Option H) → List X → Except PyErr (List X)
  | _, [] => .ok []
  | st, x :: xs =>
    match stackStep st x with
    | .error e => .error e
    | .ok (y, st') =>
      match stackRun st' xs with
      | .error e => .error e
      | .ok ys => .ok (y :: ys)

/-- One module over a sequence of inputs, the caller passing the state. -/
def passState (m : Module X H) : Option H → List X → Except PyErr (List X)
  | _, [] => .ok []
  | s, x :: xs =>
    match layerStep m s x with
    | .error e => .error e
    | .ok (y, s') =>
      match passState m s' xs with
      | .error e => .error e
      | .ok ys => .ok (y :: ys)

/-! ### Lemmas -/

theorem lookup_append (l₁ l₂ : List (ℕ × H)) (i : ℕ) (h : ∀ p ∈ l₁, p.1 ≠ i) : (l₁ ++ l₂).lookup i = l₂.lookup i := by
  induction l₁ with
  | nil => rfl
  | cons p ps ih =>
    have h1 : (i == p.1) = false := by simpa using fun e => (h p (by simp)) e.symm
    rw [List.cons_append, List.lookup_cons, h1]
    exact ih fun q hq => h q (by simp [hq])

/-- The states of the layers from number `i` on, read from the dictionary. -/
def readStates (d : List (ℕ × H)) : ℕ → List (Module X H) → List (Module X H × Option H)
  | _, [] => []
  | i, l :: ls => (l, get d i) :: readStates d (i + 1) ls

/-- The dictionary made of the states of the layers from number `i` on. -/
def toDict : ℕ → List (Module X H × Option H) → List (ℕ × H)
  | _, [] => []
  | i, (_, s) :: rest => (s.elim [] fun h => [(i, h)]) ++ toDict (i + 1) rest

theorem toDict_ge (st : List (Module X H × Option H)) : ∀ i, ∀ p ∈ toDict i st, i ≤ p.1 := by
  induction st with
  | nil => intro i p hp; simp [toDict] at hp
  | cons q rest ih =>
    intro i p hp
    obtain ⟨l, s⟩ := q
    simp only [toDict, List.mem_append] at hp
    rcases hp with hp | hp
    · cases s with
      | none => simp at hp
      | some h => simp only [Option.elim, List.mem_singleton] at hp; subst hp; exact Nat.le_refl _
    · have := ih (i + 1) p hp; omega

theorem get_toDict_lt (st : List (Module X H × Option H)) (i j : ℕ) (h : j < i) : get (toDict i st) j = none := by
  unfold get
  rw [List.lookup_eq_none_iff]
  intro p hp
  have := toDict_ge st i p hp
  simpa using fun e => (by omega : j ≠ p.1) e

theorem readStates_congr (d d' : List (ℕ × H)) (ls : List (Module X H)) : ∀ i, (∀ j, i ≤ j → get d j = get d' j) → readStates d i ls = readStates d' i ls := by
  induction ls with
  | nil => intro i _; rfl
  | cons l ls ih =>
    intro i h
    simp only [readStates]
    rw [h i (Nat.le_refl _), ih (i + 1) fun j hj => h j (by omega)]

theorem readStates_toDict (st : List (Module X H × Option H)) : ∀ i, readStates (toDict i st) i (st.map Prod.fst) = st := by
  induction st with
  | nil => intro i; rfl
  | cons q rest ih =>
    intro i
    obtain ⟨l, s⟩ := q
    have h1 : get (toDict i ((l, s) :: rest)) i = s := by
      cases s with
      | none => simp only [toDict, Option.elim, List.nil_append]; exact get_toDict_lt rest (i + 1) i (by omega)
      | some h => simp [toDict, get]
    have h2 : ∀ j, i + 1 ≤ j → get (toDict i ((l, s) :: rest)) j = get (toDict (i + 1) rest) j := by
      intro j hj
      simp only [get]
      rw [toDict]
      apply lookup_append
      intro p hp
      cases s with
      | none => simp at hp
      | some h => simp only [Option.elim, List.mem_singleton] at hp; subst hp; simp; omega
    simp only [List.map_cons, readStates, h1]
    rw [readStates_congr _ _ _ _ h2, ih (i + 1)]

theorem stackStep_layers (st : List (Module X H × Option H)) : ∀ x y st', stackStep st x = .ok (y, st') → st'.map Prod.fst = st.map Prod.fst := by
  induction st with
  | nil => intro x y st' h; simp only [stackStep, Except.ok.injEq, Prod.mk.injEq] at h; rw [← h.2]
  | cons q rest ih =>
    intro x y st' h
    obtain ⟨l, s⟩ := q
    simp only [stackStep] at h
    split at h
    · cases h
    · split at h
      · cases h
      · rename_i hr
        cases h
        simp [ih _ _ _ hr]

theorem multiLoop_eq (d : List (ℕ × H)) (ls : List (Module X H)) : ∀ i x acc,
    multiLoop d i ls x acc = match stackStep (readStates d i ls) x with
      | .error e => .error e
      | .ok (y, st') => .ok (y, acc ++ toDict i st') := by
  induction ls with
  | nil => intro i x acc; simp [multiLoop, readStates, stackStep, toDict]
  | cons l ls ih =>
    intro i x acc
    simp only [multiLoop, readStates, stackStep, layerStep]
    cases hl : l x (get d i) with
    | error e => rfl
    | ok r =>
      cases r with
      | tuple n => rfl
      | other y => rfl
      | tensor y =>
        simp only [Except.bind, unpack, ih, store]
        cases hs : stackStep (readStates d (i + 1) ls) y with
        | error e => rfl
        | ok p => simp [toDict]
      | pair y h =>
        simp only [Except.bind, unpack, ih]
        cases hs : stackStep (readStates d (i + 1) ls) y with
        | error e => rfl
        | ok p => cases h <;> simp [toDict, store]

theorem forward_multi (ls : List (Module X H)) (hidden : Option (List (ℕ × H))) (x : X) :
    forward (multi ls) hidden x = match stackStep (readStates (hidden.getD []) 0 ls) x with
      | .error e => ⟨hidden, .error e⟩
      | .ok (y, st') => ⟨if (toDict 0 st').length = 0 then none else some (toDict 0 st'), .ok y⟩ := by
  simp only [forward, multi, multiLoop_eq]
  cases hs : stackStep (readStates (hidden.getD []) 0 ls) x with
  | error e => rfl
  | ok p =>
    obtain ⟨y, st'⟩ := p
    simp only [Except.bind, List.nil_append]
    by_cases h0 : (toDict 0 st').length = 0 <;> simp [h0]

theorem calls_multi (ls : List (Module X H)) (xs : List X) : ∀ hidden,
    calls (multi ls) hidden xs = stackRun (readStates (hidden.getD []) 0 ls) xs := by
  induction xs with
  | nil => intro _; rfl
  | cons x xs ih =>
    intro hidden
    simp only [calls, stackRun, forward_multi]
    cases hs : stackStep (readStates (hidden.getD []) 0 ls) x with
    | error e => rfl
    | ok p =>
      obtain ⟨y, st'⟩ := p
      have hls : ∀ (d : List (ℕ × H)) i (l : List (Module X H)), (readStates d i l).map Prod.fst = l := by
        intro d i l
        induction l generalizing i with
        | nil => rfl
        | cons a l ih => simp [readStates, ih]
      have hst : readStates ((if (toDict 0 st').length = 0 then none else some (toDict 0 st')).getD []) 0 ls = st' := by
        have e : (if (toDict 0 st').length = 0 then none else some (toDict 0 st')).getD [] = toDict 0 st' := by
          split
          · rename_i h; simp [List.length_eq_zero_iff.1 h]
          · rfl
        rw [e]
        have h1 := stackStep_layers _ _ _ _ hs
        rw [hls] at h1
        rw [← h1]
        exact readStates_toDict st' 0
      simp only [Except.bind]
      rw [ih, hst]
      cases stackRun st' xs <;> rfl

theorem readStates_nil (ls : List (Module X H)) : ∀ i, readStates ([] : List (ℕ × H)) i ls = ls.map fun l => (l, none) := by
  induction ls with
  | nil => intro _; rfl
  | cons l ls ih => intro i; simp [readStates, ih, get]

/-! ### Theorems -/

/-- **C63.** A stateful module around a multi-layered one, after a reset: over every sequence of inputs, its outputs (and its first exception) are those of the stack in which each
layer has its own state, starts without one, and gets in each time step the state it returned in the step before. -/
theorem C63_multilayered (layers : List (Module X H)) (xs : List X) :
    calls (multi layers) reset xs = stackRun (layers.map fun l => (l, none)) xs := by
  rw [calls_multi]
  simp [reset, readStates_nil]

/-- **C63.** The same for one time step without `StatefulModule`: given the dictionary of the layers' states, `MultiLayered` computes one step of the stack and returns the dictionary of the new
states (or only the output if no layer has a state). -/
theorem C63_multilayered_step (st : List (Module X H × Option H)) (x : X) :
    (∀ e, stackStep st x = .error e → multi (st.map Prod.fst) x (some (toDict 0 st)) = .error e) ∧
    (∀ y st', stackStep st x = .ok (y, st') → multi (st.map Prod.fst) x (some (toDict 0 st)) =
      .ok (if (∀ p ∈ st', p.2 = none) then .tensor y else .pair y (some (toDict 0 st')))) := by
  have hm : multi (st.map Prod.fst) x (some (toDict 0 st)) = (match stackStep st x with
      | .error e => .error e
      | .ok (y, st') => .ok (if (toDict 0 st').length = 0 then .tensor y else .pair y (some (toDict 0 st')))) := by
    simp only [multi, multiLoop_eq, Option.getD, readStates_toDict]
    cases stackStep st x with
    | error e => rfl
    | ok p => simp [Except.bind]
  have hz : ∀ (st : List (Module X H × Option H)) i, (toDict i st).length = 0 ↔ ∀ p ∈ st, p.2 = none := by
    intro st
    induction st with
    | nil => simp [toDict]
    | cons q rest ih =>
      intro i
      obtain ⟨l, s⟩ := q
      cases s with
      | none =>
        simp only [toDict, Option.elim, List.nil_append, ih (i + 1), List.mem_cons, forall_eq_or_imp, true_and]
      | some h => simp [toDict]
  refine ⟨fun e he => by rw [hm, he], fun y st' h => ?_⟩
  rw [hm, h]
  simp only [hz]

/-- **C63.** A stateful module around any module: after a reset, a sequence of calls equals explicit state passing. (The module returns tensors or tuples.) -/
theorem C63_stateful (m : Module X H) (hm : ∀ x s y, m x s ≠ .ok (.other y)) (xs : List X) : ∀ s, calls m s xs = passState m s xs := by
  induction xs with
  | nil => intro _; rfl
  | cons x xs ih =>
    intro s
    simp only [calls, passState, forward, layerStep]
    cases hr : m x s with
    | error e => rfl
    | ok r =>
      cases r with
      | tuple n => rfl
      | other y => exact absurd hr (hm x s y)
      | tensor y => simp only [Except.bind, ih]; cases passState m none xs <;> rfl
      | pair y h => simp only [Except.bind, ih]; cases passState m h xs <;> rfl

/-- **C63.** Whatever was done before, a reset brings the module back to its initial state; and a call which fails leaves the hidden state as it was. -/
theorem C63_reset (m : Module X H) (hidden : Option H) (ops : List (Op X)) (xs : List X) :
    calls m (runOps m hidden (ops ++ [.reset])) xs = calls m reset xs ∧
    (∀ x e, (forward m hidden x).result = .error e → (forward m hidden x).state = hidden) := by
  constructor
  · have : runOps m hidden (ops ++ [.reset]) = reset := by
      induction ops generalizing hidden with
      | nil => rfl
      | cons o os ih => simp only [List.cons_append, runOps]; exact ih _
    rw [this]
  · intro x e h
    unfold forward at *
    split <;> simp_all

/-- The inputs of the calls since the last reset. -/
def sinceReset : List (Op X) → List X → List X
  | [], xs => xs
  | .reset :: ops, _ => sinceReset ops []
  | .call x :: ops, xs => sinceReset ops (xs ++ [x])

/-- The state that results from passing it along, where a failed step leaves it as it was. -/
def stateAfter (m : Module X H) (s : Option H) (xs : List X) : Option H :=
  xs.foldl (fun s x => match layerStep m s x with
    | .ok (_, s') => s'
    | .error _ => s) s

/-- **C63.** After any history of calls (failed ones too) and resets, the module behaves as one to which its state was passed explicitly through the calls since the last reset. -/
theorem C63_history (m : Module X H) (hm : ∀ x s y, m x s ≠ .ok (.other y)) (ops : List (Op X)) (xs : List X) :
    calls m (runOps m reset ops) xs = passState m (stateAfter m none (sinceReset ops [])) xs := by
  have hstep : ∀ (s : Option H) (x : X), (forward m s x).state = stateAfter m s [x] := by
    intro s x
    simp only [stateAfter, List.foldl_cons, List.foldl_nil, layerStep, forward]
    cases h : m x s with
    | error e => rfl
    | ok r =>
      cases r with
      | other y => exact absurd h (hm x s y)
      | _ => rfl
  have hrun : ∀ (ops : List (Op X)) (done : List X), runOps m (stateAfter m none done) ops = stateAfter m none (sinceReset ops done) := by
    intro ops
    induction ops with
    | nil => intro done; rfl
    | cons op ops ih =>
      intro done
      cases op with
      | reset => exact ih []
      | call x =>
        have e : (step m (stateAfter m none done) (.call x)).state = stateAfter m none (done ++ [x]) := by
          change (forward m (stateAfter m none done) x).state = _
          rw [hstep]
          simp only [stateAfter, List.foldl_append]
        simp only [runOps, sinceReset, e]
        exact ih _
  have h0 : runOps m reset ops = stateAfter m none (sinceReset ops []) := hrun ops []
  rw [h0]
  exact C63_stateful m hm xs _

/-- Running sums: three calls, a reset, two calls; the next call goes on from the last two. -/
example : sinceReset [Op.call 5, .call 6, .call 7, .reset, .call 1, .call 2] [] = [1, 2] := by decide

/-- A layer which adds up its inputs. -/
def accumulator : Module ℕ ℕ := fun x s => .ok (.pair (s.getD 0 + x) (some (s.getD 0 + x)))
/-- A layer without state. -/
def double : Module ℕ ℕ := fun x _ => .ok (.tensor (2 * x))

/-- Running sums of running sums. -/
example : (match calls (multi [accumulator, double, accumulator]) reset [1, 1, 1] with | .ok ys => ys | .error _ => []) = [2, 6, 12] := by decide

example : ∀ x s y, accumulator x s ≠ .ok (.other y) := by intro x s y h; cases h

end EvoTorch.Recurrent
