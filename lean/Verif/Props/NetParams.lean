import Verif.Model.NetParams
import Mathlib.Data.List.Basic
import Mathlib.Algebra.BigOperators.Group.List.Basic
/-! Property C62: flat parameter vectors round-trip, and the functional form of a network is the network filled with the vector. -/
namespace EvoTorch.NetParams
open EvoTorch
variable {K : Type}

/-! ### Specification -/

/-- Every parameter has as many elements as its shape says. -/
def WellShaped (net : List (Param K)) : Prop := ∀ p ∈ net, p.value.data.length = p.value.shape.prod

/-- Where parameter `k` begins in the flat vector: after all elements of the earlier parameters. -/
def offset (net : List (Param K)) (k : ℕ) : ℕ := ((net.take k).map fun p => p.value.data.length).sum

/-- The number of elements of all parameters. -/
def total (net : List (Param K)) : ℕ := (net.map fun p => p.value.data.length).sum

/-- The network `net` with its elements replaced by those of `v`: same names and shapes, and parameter `k` holds the elements of `v` from `offset net k` on. -/
structure FilledWith (net filled : List (Param K)) (v : List K) : Prop where
  names : filled.map Param.name = net.map Param.name
  shapes : filled.map (fun p => p.value.shape) = net.map (fun p => p.value.shape)
  data : ∀ k p, net[k]? = some p → ∃ q, filled[k]? = some q ∧ q.value.data.length = p.value.data.length ∧
    ∀ i, i < p.value.data.length → q.value.data[i]? = v[offset net k + i]?

/-! ### Lemmas -/

theorem fill_offset_cons (p : Param K) (ps : List (Param K)) (k : ℕ) : offset (p :: ps) (k + 1) = p.value.data.length + offset ps k := by
  simp [offset]

theorem countParameters_eq (net : List (Param K)) : countParameters net = total net := by
  have : ∀ (l : List (Param K)) (c : ℕ), l.foldl (fun c p => c + p.value.data.length) c = c + (l.map fun p => p.value.data.length).sum := by
    intro l
    induction l with
    | nil => simp
    | cons p ps ih => intro c; simp only [List.foldl_cons, ih, List.map_cons, List.sum_cons]; omega
  simp [countParameters, this, total]

theorem shapeLength_eq (s : List ℕ) : shapeLength s = s.prod := by
  have : ∀ (l : List ℕ) (c : ℕ), l.foldl (· * ·) c = c * l.prod := by
    intro l
    induction l with
    | nil => simp
    | cons p ps ih => intro c; simp only [List.foldl_cons, ih, List.prod_cons, Nat.mul_assoc]
  simp [shapeLength, this]

/-- The filled network, described by recursion (used only in proofs). -/
def filled (v : List K) : ℕ → List (Param K) → List (Param K)
  | _, [] => []
  | a, p :: ps => ⟨p.name, ⟨p.value.shape, (v.drop a).take p.value.data.length⟩⟩ :: filled v (a + p.value.data.length) ps

theorem fillLoop_ok (v : List K) (net : List (Param K)) : ∀ a, a + total net ≤ v.length →
    fillLoop v a net = ⟨filled v a net, .ok (a + total net)⟩ := by
  induction net with
  | nil => intro a _; simp [fillLoop, filled, total]
  | cons p ps ih =>
    intro a h
    have e : total (p :: ps) = p.value.data.length + total ps := by simp [total]
    have hl : ((v.drop a).take p.value.data.length).length = p.value.data.length := by simp; omega
    simp only [fillLoop, assign, hl, if_true, filled]
    rw [ih (a + p.value.data.length) (by omega)]
    simp [e, Nat.add_assoc]

/-- However the loop ends, the address reached is the number of all elements. -/
theorem fillLoop_address (v : List K) (net : List (Param K)) : ∀ a n, (fillLoop v a net).result = .ok n → n = a + total net := by
  induction net with
  | nil => intro a n h; simp [fillLoop] at h; simp [total, h]
  | cons p ps ih =>
    intro a n h
    simp only [fillLoop] at h
    split at h
    · simp at h
    · have := ih _ _ h
      simp only [total, List.map_cons, List.sum_cons] at *
      omega

theorem filled_flat (v : List K) (net : List (Param K)) : ∀ a, a + total net ≤ v.length →
    ((filled v a net).flatMap fun p => p.value.data) = (v.drop a).take (total net) := by
  induction net with
  | nil => intro a _; simp [filled, total]
  | cons p ps ih =>
    intro a h
    have e : total (p :: ps) = p.value.data.length + total ps := by simp [total]
    rw [filled, List.flatMap_cons, ih _ (by omega), e, List.take_add, List.drop_drop]

theorem filled_spec (v : List K) (net : List (Param K)) : ∀ a, a + total net ≤ v.length →
    (filled v a net).map Param.name = net.map Param.name ∧
    (filled v a net).map (fun p => p.value.shape) = net.map (fun p => p.value.shape) ∧
    ∀ k p, net[k]? = some p → ∃ q, (filled v a net)[k]? = some q ∧ q.value.data.length = p.value.data.length ∧
      ∀ i, i < p.value.data.length → q.value.data[i]? = v[a + offset net k + i]? := by
  induction net with
  | nil => intro a _; simp [filled]
  | cons p ps ih =>
    intro a h
    have e : total (p :: ps) = p.value.data.length + total ps := by simp [total]
    obtain ⟨h1, h2, h3⟩ := ih (a + p.value.data.length) (by omega)
    refine ⟨by simp [filled, h1], by simp [filled, h2], ?_⟩
    intro k q hk
    cases k with
    | zero =>
      simp only [List.getElem?_cons_zero, Option.some.injEq] at hk
      subst hk
      refine ⟨⟨p.name, ⟨p.value.shape, (v.drop a).take p.value.data.length⟩⟩, by simp [filled], ?_, ?_⟩
      · simp; omega
      · intro i hi
        simp [List.getElem?_take, hi, offset]
    | succ k =>
      rw [List.getElem?_cons_succ] at hk
      obtain ⟨r, r1, r2, r3⟩ := h3 k q hk
      refine ⟨r, by simpa [filled] using r1, r2, ?_⟩
      intro i hi
      rw [r3 i hi, fill_offset_cons]
      congr 1; omega

theorem sliceLoop_cut (v : List K) (net : List (Param K)) (hw : WellShaped net) : ∀ a,
    cut v (net.map Param.name) (net.map fun p => p.value.shape) (sliceLoop a net) = filled v a net := by
  induction net with
  | nil => intro a; simp [cut, filled]
  | cons p ps ih =>
    intro a
    have hp : p.value.data.length = p.value.shape.prod := hw p (by simp)
    simp only [List.map_cons, sliceLoop, cut, filled, shapeLength_eq, ← hp]
    rw [ih (fun q hq => hw q (by simp [hq]))]
    congr 3
    rw [List.drop_take]
    congr 1
    omega

theorem length_eq (net buffers : List (Param K)) (hw : WellShaped net) : (mkFunctional net buffers).length = total net := by
  have : ∀ (l : List (Param K)) (c : ℕ), WellShaped l →
      l.foldl (fun c p => c + shapeLength p.value.shape) c = c + (l.map fun p => p.value.data.length).sum := by
    intro l
    induction l with
    | nil => simp
    | cons p ps ih =>
      intro c h
      simp only [List.foldl_cons, List.map_cons, List.sum_cons]
      rw [ih _ (fun q hq => h q (by simp [hq])), shapeLength_eq, h p (by simp)]
      omega
  simp only [mkFunctional, this net 0 hw, total]
  omega

/-! ### Theorems -/

/-- **C62.** Filling a network with a vector of the right length succeeds, puts into each parameter its own consecutive slice, and afterwards `parameter_vector` returns the
vector. -/
theorem C62_fill_round_trip (net : List (Param K)) (v : List K) (h : v.length = total net) :
    ∃ net', fillParameters net v = ⟨net', .ok ()⟩ ∧ FilledWith net net' v ∧ (net ≠ [] → parameterVector net' = .ok v) := by
  obtain ⟨h1, h2, h3⟩ := filled_spec v net 0 (by omega)
  refine ⟨filled v 0 net, ?_, ⟨h1, h2, by simpa using h3⟩, ?_⟩
  · simp [fillParameters, fillLoop_ok v net 0 (by omega), h]
  · intro hne
    have hf := filled_flat v net 0 (by omega)
    simp only [List.drop_zero, ← h, List.take_length] at hf
    cases net with
    | nil => exact absurd rfl hne
    | cons p ps => simp only [filled, parameterVector] at *; rw [hf]

/-- **C62.** A vector of any other length is refused, and `count_parameters` is the right length. -/
theorem C62_wrong_length (net : List (Param K)) (v : List K) :
    countParameters net = total net ∧ (v.length ≠ total net →
      (fillParameters net v).result = .error .indexError ∨ (fillParameters net v).result = .error .runtimeError) := by
  refine ⟨countParameters_eq net, fun h => ?_⟩
  unfold fillParameters
  have herr : ∀ (l : List (Param K)) a e, (fillLoop v a l).result = .error e → e = .runtimeError := by
    intro l
    induction l with
    | nil => intro a e he; simp [fillLoop] at he
    | cons p ps ih =>
      intro a e he
      simp only [fillLoop] at he
      split at he
      · rename_i e' hx
        simp only [assign] at hx
        split at hx
        · cases hx
        · split at hx
          · cases hx
          · cases hx; cases he; rfl
      · exact ih _ _ he
  cases hr : (fillLoop v 0 net).result with
  | error e => right; simp [hr, herr net 0 e hr]
  | ok n =>
    left
    have := fillLoop_address v net 0 n hr
    have hn : n ≠ v.length := by omega
    simp [hr, hn]

/-- **C62.** Filling a network with its own parameter vector changes nothing. -/
theorem C62_fill_own (net : List (Param K)) (v : List K) (h : parameterVector net = .ok v) : fillParameters net v = ⟨net, .ok ()⟩ := by
  have hv : v = net.flatMap fun p => p.value.data := by
    cases net with
    | nil => simp [parameterVector] at h
    | cons p ps => simp only [parameterVector] at h; exact (Except.ok.inj h).symm
  have hlen : v.length = total net := by rw [hv]; simp [total, List.length_flatMap]
  have key : ∀ (l : List (Param K)) (pre : List K), filled (pre ++ l.flatMap fun p => p.value.data) pre.length l = l := by
    intro l
    induction l with
    | nil => intro pre; rfl
    | cons p ps ih =>
      intro pre
      have := ih (pre ++ p.value.data)
      simp only [filled, List.flatMap_cons]
      simp only [List.length_append, List.append_assoc] at this
      rw [this]
      simp
  have hk := key net []
  simp only [List.nil_append, List.length_nil, ← hv] at hk
  simp [fillParameters, fillLoop_ok v net 0 (by omega), hlen, hk]

/-- **C62.** Calling the functional form of a network with a vector of the right length is calling the network filled with that vector, with its own buffers; other vectors and
vectors which are not 1-dimensional are refused with a ValueError, whatever the network. The filled network `net'` is the one which `fill_parameters` produces. -/
theorem C62_functional {X Y : Type} (net buffers : List (Param K)) (hw : WellShaped net) (run : List (Param K) → X → Except PyErr Y) (v : List K) (x : X) :
    (v.length = total net → ∃ net', FilledWith net net' v ∧ fillParameters net v = ⟨net', .ok ()⟩ ∧
      (mkFunctional net buffers).call run 1 v x = run (net' ++ buffers) x) ∧
    (v.length ≠ total net → (mkFunctional net buffers).call run 1 v x = .error .valueError) ∧
    (∀ ndim, ndim ≠ 1 → (mkFunctional net buffers).call run ndim v x = .error .valueError) := by
  refine ⟨fun h => ?_, fun h => ?_, fun d h => by simp [Functional.call, h]⟩
  · obtain ⟨net', h1, h2, -⟩ := C62_fill_round_trip net v h
    refine ⟨net', h2, h1, ?_⟩
    have hl := length_eq net buffers hw
    have hn : net' = filled v 0 net := by
      have := congrArg Outcome.state h1
      simp [fillParameters, fillLoop_ok v net 0 (by omega)] at this
      exact this.symm
    simp only [Functional.call, hl, h, not_true_eq_false, if_false, ne_eq]
    rw [hn]
    simp only [mkFunctional, sliceLoop_cut v net hw]
  · simp [Functional.call, length_eq net buffers hw, h]

/-- A network with a 2x2 weight and a bias. -/
def demo : List (Param ℕ) := [⟨"weight", ⟨[2, 2], [0, 0, 0, 0]⟩⟩, ⟨"bias", ⟨[2], [0, 0]⟩⟩]

example : ([1, 2, 3, 4, 5, 6] : List ℕ).length = total demo := rfl
example : WellShaped demo := by intro p hp; simp [demo] at hp; rcases hp with rfl | rfl <;> rfl
example : parameterVector demo = .ok [0, 0, 0, 0, 0, 0] := rfl

/-- **C62, what a refusal leaves behind.** A vector which is one too long or too short is refused, but the network has been overwritten; a slice of one element is even spread over
the whole parameter. -/
theorem C62_refused_fill_modifies :
    (fillParameters demo [1, 2, 3, 4, 5, 6, 7]).result = .error .indexError ∧
    ((fillParameters demo [1, 2, 3, 4, 5, 6, 7]).state.map fun p => p.value.data) = [[1, 2, 3, 4], [5, 6]] ∧
    (fillParameters demo [1, 2, 3, 4, 5]).result = .error .indexError ∧
    ((fillParameters demo [1, 2, 3, 4, 5]).state.map fun p => p.value.data) = [[1, 2, 3, 4], [5, 5]] := ⟨rfl, rfl, rfl, rfl⟩

end EvoTorch.NetParams
