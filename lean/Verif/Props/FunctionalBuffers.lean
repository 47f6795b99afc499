import Verif.Model.FunctionalBuffers
import Verif.Props.NetParams
/-!
C187: the functional form of a network has the buffers which the network had when it was wrapped.
-/
namespace EvoTorch.FunctionalBuffers
open EvoTorch
open EvoTorch.NetParams (Param Tensor mkFunctional Functional WellShaped FilledWith total)
variable {K D X Y : Type} [DecidableEq D]

/-! ### Specification -/

/-- The buffers of a network refer to existing tensors. -/
def Valid (s : Store K D) (l : List (String × Nat)) : Prop := ∀ p ∈ l, p.2 < s.length

/-- The buffers of a network, moved to a device. -/
def onDevice (s : Store K D) (net : List (String × Nat)) (d : D) : List (String × Buf K D) := (look s net).map fun p => (p.1, ⟨p.2.value, d⟩)

/-! ### Loops -/

/-- `f` gives a reference to the tensor `g t`, either the same or a new one, and leaves the existing tensors alone. -/
def Does (f : Store K D → Nat → Store K D × Nat) (g : Buf K D → Buf K D) : Prop :=
  ∀ s a t, s[a]? = some t → (∃ ext, (f s a).1 = s ++ ext) ∧ (f s a).1[(f s a).2]? = some (g t) ∧ ((f s a).2 = a ∨ s.length ≤ (f s a).2)

omit [DecidableEq D] in
theorem clone_does : Does (K := K) (D := D) clone id := by
  intro s a t h
  simp [clone, h]

theorem asTensor_does (d : D) : Does (K := K) (asTensor d) (fun t => ⟨t.value, d⟩) := by
  intro s a t h
  unfold asTensor
  rw [h]
  dsimp only
  split
  · next hd => subst hd; exact ⟨⟨[], by simp⟩, h, .inl rfl⟩
  · simp

omit [DecidableEq D] in
theorem look_append {s : Store K D} {l : List (String × Nat)} (h : Valid s l) (ext : Store K D) : look (s ++ ext) l = look s l := by
  unfold look
  refine List.filterMap_congr fun p hp => ?_
  rw [List.getElem?_append_left (h p hp)]

omit [DecidableEq D] in
theorem forAll_spec {f : Store K D → Nat → Store K D × Nat} {g : Buf K D → Buf K D} (hf : Does f g) : ∀ (l : List (String × Nat)) (s : Store K D), Valid s l →
    (∃ ext, (forAll f s l).1 = s ++ ext) ∧ Valid (forAll f s l).1 (forAll f s l).2 ∧ look (forAll f s l).1 (forAll f s l).2 = (look s l).map (fun p => (p.1, g p.2)) ∧
    ∀ p ∈ (forAll f s l).2, (∃ q ∈ l, p.2 = q.2) ∨ s.length ≤ p.2 := by
  intro l
  induction l with
  | nil => intro s _; exact ⟨⟨[], by simp [forAll]⟩, by simp [forAll, Valid], by simp [forAll, look], by simp [forAll]⟩
  | cons p l ih =>
    intro s hv
    obtain ⟨name, a⟩ := p
    have ha : a < s.length := hv (name, a) (by simp)
    have ht : s[a]? = some s[a] := List.getElem?_eq_getElem ha
    obtain ⟨⟨e1, he1⟩, hg, hn⟩ := hf s a _ ht
    have hv1 : Valid (f s a).1 l := by
      intro q hq
      have := hv q (by simp [hq])
      rw [he1, List.length_append]
      omega
    obtain ⟨⟨e2, he2⟩, hv2, hl, hnew⟩ := ih (f s a).1 hv1
    have hlt : (f s a).2 < (f s a).1.length := by
      by_contra hc
      rw [List.getElem?_eq_none (by omega)] at hg
      cases hg
    refine ⟨⟨e1 ++ e2, ?_⟩, ?_, ?_, ?_⟩
    · simp only [forAll]
      rw [he2, he1, List.append_assoc]
    · intro q hq
      simp only [forAll, List.mem_cons] at hq ⊢
      rcases hq with rfl | hq
      · rw [he2, List.length_append]; dsimp only; omega
      · exact hv2 q hq
    · have h1 : look s ((name, a) :: l) = (name, s[a]) :: look s l := by simp [look, ht]
      have h2 : look s l = look (f s a).1 l := by
        rw [he1, look_append]
        exact fun q hq => hv q (by simp [hq])
      have h3 : (forAll f (f s a).1 l).1[(f s a).2]? = some (g s[a]) := by
        rw [he2, List.getElem?_append_left hlt, hg]
      rw [h1, h2, List.map_cons, ← hl]
      simp [forAll, look, h3]
    · intro q hq
      simp only [forAll, List.mem_cons] at hq
      rcases hq with rfl | hq
      · rcases hn with hn | hn
        · exact .inl ⟨(name, a), by simp, hn⟩
        · exact .inr hn
      · rcases hnew q hq with ⟨r, hr, he⟩ | hle
        · exact .inl ⟨r, by simp [hr], he⟩
        · right
          rw [he1, List.length_append] at hle
          omega

/-! ### The invariant -/

/-- The wrapper has its own tensors, with the values of `orig`. -/
structure Inv (orig : List (String × Tensor K)) (w : World K D) : Prop where
  net : Valid w.store w.net
  wrapper : Valid w.store w.wrapper
  apart : ∀ p ∈ w.net, ∀ q ∈ w.wrapper, p.2 ≠ q.2
  values : (look w.store w.wrapper).map (fun p => (p.1, p.2.value)) = orig

omit [DecidableEq D] in
theorem clones_fresh : ∀ (l : List (String × Nat)) (s : Store K D), Valid s l → ∀ p ∈ (forAll clone s l).2, s.length ≤ p.2 := by
  intro l
  induction l with
  | nil => intro s _ p hp; simp [forAll] at hp
  | cons q l ih =>
    intro s hv p hp
    obtain ⟨name, a⟩ := q
    have ha : a < s.length := hv (name, a) (by simp)
    have hc : clone s a = (s ++ [s[a]], s.length) := by simp [clone, ha]
    simp only [forAll, hc, List.mem_cons] at hp
    rcases hp with rfl | hp
    · exact Nat.le_refl _
    · have := ih (s ++ [s[a]]) (fun r hr => by have := hv r (by simp [hr]); simp; omega) p hp
      simp at this
      omega

omit [DecidableEq D] in
theorem make_inv {s : Store K D} {net : List (String × Nat)} (h : Valid s net) : Inv ((look s net).map fun p => (p.1, p.2.value)) (make s net) := by
  obtain ⟨⟨e, he⟩, hv, hl, -⟩ := forAll_spec clone_does net s h
  have hfresh := clones_fresh net s h
  refine ⟨?_, hv, ?_, ?_⟩
  · intro p hp
    have := h p hp
    simp only [make] at hp ⊢
    rw [he, List.length_append]
    omega
  · intro p hp q hq
    have h1 := h p hp
    have h2 := hfresh q hq
    omega
  · simp only [make]
    rw [hl]
    simp

theorem step_inv {orig : List (String × Tensor K)} (params : List (Param K)) (run : List (Param K) → List (String × Buf K D) → X → Except PyErr Y) {w : World K D} (h : Inv orig w) (e : Event K D X) :
    Inv orig (step params run w e) := by
  cases e with
  | change i value =>
    simp only [step]
    split
    · exact h
    · next p hp =>
      split
      · exact h
      · next t ht =>
        refine ⟨fun q hq => by simpa using h.net q hq, fun q hq => by simpa using h.wrapper q hq, h.apart, ?_⟩
        rw [← h.values]
        congr 1
        unfold look
        refine List.filterMap_congr fun q hq => ?_
        dsimp only
        rw [List.getElem?_set_ne (h.apart p (List.mem_of_getElem? hp) q hq)]
  | move d =>
    obtain ⟨⟨e, he⟩, hv, -, hnew⟩ := forAll_spec (asTensor_does d) w.net w.store h.net
    simp only [step]
    refine ⟨hv, fun q hq => ?_, fun p hp q hq => ?_, ?_⟩
    · have := h.wrapper q hq
      dsimp only
      rw [he, List.length_append]
      omega
    · have hq' := h.wrapper q hq
      rcases hnew p hp with ⟨r, hr, hpr⟩ | hle
      · rw [hpr]; exact h.apart r hr q hq
      · omega
    · dsimp only
      rw [he, look_append h.wrapper]
      exact h.values
  | call c =>
    obtain ⟨⟨e, he⟩, hv, hl, hnew⟩ := forAll_spec (asTensor_does c.device) w.wrapper w.store h.wrapper
    simp only [step, call]
    split
    · exact h
    split
    · exact h
    refine ⟨fun q hq => ?_, hv, fun p hp q hq => ?_, ?_⟩
    · have := h.net q hq
      dsimp only
      rw [he, List.length_append]
      omega
    · have hp' := h.net p hp
      rcases hnew q hq with ⟨r, hr, hpr⟩ | hle
      · rw [hpr]; exact h.apart p hp r hr
      · omega
    · dsimp only
      rw [hl, ← h.values]
      simp

theorem run_inv {orig : List (String × Tensor K)} (params : List (Param K)) (run : List (Param K) → List (String × Buf K D) → X → Except PyErr Y) (evs : List (Event K D X)) {w : World K D} (h : Inv orig w) :
    Inv orig (evs.foldl (step params run) w) := by
  induction evs generalizing w with
  | nil => exact h
  | cons e evs ih => exact ih (step_inv params run h e)

/-! ### The claims -/

/-- **C187 (calls).** Wrap a network with buffers, then let anything happen: the owner changes the buffers of the network in place, moves the network to other devices, the wrapper is called. A call with a vector of the right length
then still runs the network with the parameters from the vector and with the buffers which the network had when it was wrapped, all of them on the device of the input. Other vectors are refused with a ValueError. -/
theorem C187_calls (s : Store K D) (net : List (String × Nat)) (hn : Valid s net) (params : List (Param K)) (hw : WellShaped params)
    (run : List (Param K) → List (String × Buf K D) → X → Except PyErr Y) (evs : List (Event K D X)) (c : Call K D X) :
    (c.ndim = 1 → c.vector.length = total params → ∃ filled, FilledWith params filled c.vector ∧
      (call params run c (evs.foldl (step params run) (make s net))).2 = run filled (onDevice s net c.device) c.x) ∧
    (c.ndim ≠ 1 ∨ c.vector.length ≠ total params → (call params run c (evs.foldl (step params run) (make s net))).2 = .error .valueError) := by
  have hI := run_inv params run evs (make_inv hn)
  generalize evs.foldl (step params run) (make s net) = w at hI
  have hlen := NetParams.length_eq params [] hw
  constructor
  · intro h1 h2
    obtain ⟨-, -, hl, -⟩ := forAll_spec (asTensor_does c.device) w.wrapper w.store hI.wrapper
    obtain ⟨filled, hf, -, hcall⟩ := (NetParams.C62_functional params [] hw (fun ps x => run ps (onDevice s net c.device) x) c.vector c.x).1 h2
    refine ⟨filled, hf, ?_⟩
    rw [List.append_nil] at hcall
    rw [← hcall]
    simp only [call, h1, hlen, h2, ne_eq, not_true_eq_false, if_false]
    rw [hl]
    have : (look w.store w.wrapper).map (fun p => (p.1, (⟨p.2.value, c.device⟩ : Buf K D))) = onDevice s net c.device := by
      have := congrArg (List.map fun p : String × Tensor K => (p.1, (⟨p.2, c.device⟩ : Buf K D))) hI.values
      simpa [onDevice, Function.comp_def] using this
    rw [this]
  · intro h
    have hc := NetParams.C62_functional params [] hw (fun ps x => run ps (look (call params run c w).1.store (call params run c w).1.wrapper) x) c.vector c.x
    change (mkFunctional params []).call (fun ps x => run ps (look (call params run c w).1.store (call params run c w).1.wrapper) x) c.ndim c.vector c.x = _
    by_cases hd : c.ndim = 1
    · rw [hd]
      exact hc.2.1 (h.resolve_left fun h => h hd)
    · exact hc.2.2 _ hd

/-- **C187 (the network).** No call of the wrapper changes the buffers of the network, or moves them. -/
theorem C187_network (s : Store K D) (net : List (String × Nat)) (hn : Valid s net) (params : List (Param K)) (run : List (Param K) → List (String × Buf K D) → X → Except PyErr Y) (evs : List (Event K D X)) (c : Call K D X) :
    let w := evs.foldl (step params run) (make s net)
    let w' := (call params run c w).1
    w'.net = w.net ∧ look w'.store w'.net = look w.store w.net := by
  intro w w'
  have hI : Inv _ w := run_inv params run evs (make_inv hn)
  obtain ⟨⟨e, he⟩, -⟩ := forAll_spec (asTensor_does c.device) w.wrapper w.store hI.wrapper
  have hw' : w' = w ∨ w' = ⟨(forAll (asTensor c.device) w.store w.wrapper).1, w.net, (forAll (asTensor c.device) w.store w.wrapper).2⟩ := by
    simp only [w', call]
    split
    · exact .inl rfl
    · split
      · exact .inl rfl
      · exact .inr rfl
  rcases hw' with hw' | hw'
  · rw [hw']; exact ⟨rfl, rfl⟩
  · rw [hw']
    dsimp only
    rw [he, look_append hI.net]
    exact ⟨rfl, rfl⟩

/-! ### A concrete case: a running mean on the CPU, overwritten by its owner, then the wrapper is called with an input on a GPU, and on the CPU again -/

def exStore : Store Nat Bool := [⟨⟨[2], [3, 4]⟩, false⟩]
def exNet : List (String × Nat) := [("running_mean", 0)]
def exParams : List (Param Nat) := [⟨"weight", ⟨[1], [0]⟩⟩]
/-- Returns the elements of parameters and buffers, and whether all buffers are on the device of the input. -/
def exRun : List (Param Nat) → List (String × Buf Nat Bool) → Bool → Except PyErr (List Nat × Bool) :=
  fun ps bs x => .ok (ps.flatMap (fun p => p.value.data) ++ bs.flatMap (fun b => b.2.value.data), bs.all fun b => b.2.device == x)
def exHistory : List (Event Nat Bool Bool) := [.change 0 ⟨[2], [8, 9]⟩, .move true, .call ⟨1, [5], true, true⟩, .change 0 ⟨[2], [6, 6]⟩]

example : Valid exStore exNet := by simp [Valid, exStore, exNet]
example : (call exParams exRun ⟨1, [7], false, false⟩ (exHistory.foldl (step exParams exRun) (make exStore exNet))).2 = .ok ([7, 3, 4], true) := rfl
example : (look (exHistory.foldl (step exParams exRun) (make exStore exNet)).store (exHistory.foldl (step exParams exRun) (make exStore exNet)).net).map (fun p => p.2.value.data) = [[6, 6]] := rfl
example : (look (make exStore exNet).store (make exStore exNet).wrapper).map (fun p => p.2.value.data) = [[3, 4]] := rfl

/-- **C187, violated.** The property `buffers`, documented to give the stored buffers, does not: here the wrapper stores one buffer, and the property gives its name instead. -/
theorem C187_violated_buffers : Valid exStore exNet ∧ look (make exStore exNet).store (make exStore exNet).wrapper = [("running_mean", ⟨⟨[2], [3, 4]⟩, false⟩)] ∧
    buffers (make exStore exNet) ≠ (look (make exStore exNet).store (make exStore exNet).wrapper).map (fun p => .tensor p.2) ∧ buffers (make exStore exNet) = [.str "running_mean"] :=
  ⟨by simp [Valid, exStore, exNet], rfl, by simp [buffers, make, forAll, clone, exStore, exNet, look], rfl⟩

end EvoTorch.FunctionalBuffers
