import Verif.Props.Policy
import Verif.Props.Layers
/-!
C105 with C89: the rows of a policy whose network is a recurrent layer compute the textbook recurrences.
-/
namespace EvoTorch.Policy
open EvoTorch.Layers (RnnParams LstmParams unroll elman lstmSpec)
variable {K : Type} [Field K] {n m : ℕ}

/-- The calls of a policy on a sequence of inputs. -/
def calls {P X : Type} (xs : ℕ → List X) (len : ℕ) : List (Op P X) := (List.range len).map fun t => .call (xs t)

theorem calls_ops {P X : Type} (N : ℕ) (heap : ℕ → List P) (xs : ℕ → List X) (hx : ∀ t, (xs t).length = N) (len i : ℕ) (hi : i < N) :
    (calls xs len).flatMap (laneOps N heap i) = (List.range len).map fun t => .call ((xs t)[i]'(by rw [hx]; exact hi)) := by
  unfold calls
  rw [List.flatMap_map]
  have : ∀ t, laneOps (X := X) N heap i (.call (xs t)) = [.call ((xs t)[i]'(by rw [hx]; exact hi))] := fun t => by
    simp [laneOps, List.getElem?_eq_getElem (show i < (xs t).length by rw [hx]; exact hi)]
  simp only [this]
  rw [← List.map_eq_flatMap]

theorem given_calls {P X : Type} (xs : ℕ → List X) (len : ℕ) : given (P := P) (calls xs len) = [] := by
  unfold calls
  induction List.range len with
  | nil => rfl
  | cons t l ih => simpa [given] using ih

/-- The outputs of row `i` of a policy on a sequence of inputs, for a layer which is a cell with hidden states of type `H`. -/
theorem rows_unroll {P X V Y H : Type} [Zero V] {F : Module Unit P X V Y} {shape : Option (Tree Unit)} (hF : Good F shape) (cell : P → X → Option H → Y × H) (enc : H → Tree V)
    (h0 : ∀ p x, F () p x none = ((cell p x none).1, some (enc (cell p x none).2))) (h1 : ∀ p x h, F () p x (some (enc h)) = ((cell p x (some h)).1, some (enc (cell p x (some h)).2)))
    {N : ℕ} (hN : 0 < N) (heap : ℕ → List P) (pid : ℕ) (hp : (heap pid).length = N) (rst : Bool) (xs : ℕ → List X) (hx : ∀ t, (xs t).length = N) (len : ℕ) :
    ∃ st' outs, run F id (⟨heap, none, none, ()⟩ : St Unit P V) (.setAll pid rst :: calls xs len) = .ok (st', outs) ∧
      ∀ i (hi : i < N), outs.map (·[i]?) = (unroll (cell ((heap pid)[i]'(by omega))) none ((List.range len).map fun t => (xs t)[i]'(by rw [hx]; exact hi))).map some := by
  obtain ⟨st', outs, e, -, h⟩ := C105_rows_partial hN heap hF id () pid rst (calls xs len) (by
    intro op hop
    rcases List.mem_cons.mp hop with rfl | hop
    · exact hp
    · obtain ⟨t, -, rfl⟩ := List.mem_map.mp hop
      exact hx t) (by simp [given, given_calls])
  refine ⟨st', outs, e, fun i hi => ?_⟩
  rw [h i hi, List.flatMap_cons, calls_ops N heap xs hx len i hi]
  have hg : (heap pid)[i]? = some ((heap pid)[i]'(by omega)) := List.getElem?_eq_getElem (by omega)
  obtain ⟨p, hpe⟩ : ∃ p, p = (heap pid)[i]'(by omega) := ⟨_, rfl⟩
  rw [← hpe] at hg ⊢
  have key : ∀ (ts : List ℕ) (h : Option H), laneRun (F ()) (some p, h.map enc) (ts.map fun t => .call ((xs t)[i]'(by rw [hx]; exact hi))) = unroll (cell p) h (ts.map fun t => (xs t)[i]'(by rw [hx]; exact hi)) := by
    intro ts
    induction ts with
    | nil => intro h; rfl
    | cons t ts ih =>
      intro h
      simp only [List.map_cons, laneRun, unroll]
      cases h with
      | none => simp only [Option.map_none, h0]; rw [← ih (some _)]; rfl
      | some h => simp only [Option.map_some, h1]; rw [← ih (some _)]; rfl
  have := key (List.range len) none
  simp only [Option.map_none] at this
  rw [← this]
  cases rst <;> simp [laneOps, hg, laneRun]

/-- **C105, recurrent layers.** A vectorised policy made of an `RNN` layer gives in row `i`, at each time, the Elman recurrence of the inputs of row `i` with the parameters of row `i`. -/
theorem C105_rnn (act : K → K) {N : ℕ} (hN : 0 < N) (heap : ℕ → List (RnnParams K n m)) (pid : ℕ) (hp : (heap pid).length = N) (rst : Bool) (xs : ℕ → List (Fin n → K)) (hx : ∀ t, (xs t).length = N) (len : ℕ) :
    ∃ st' outs, run (rnnModule act) id ⟨heap, none, none, ()⟩ (.setAll pid rst :: calls xs len) = .ok (st', outs) ∧
      ∀ i (hi : i < N), ∀ t < len, (outs[t]?.bind (·[i]?)) = some (elman act ((heap pid)[i]'(by omega)) (fun t => (xs t)[i]'(by rw [hx]; exact hi)) (t + 1)) := by
  obtain ⟨st', outs, e, h⟩ := rows_unroll (rnn_good (n := n) (m := m) act) (fun p => Layers.rnn act p) .tensor (fun _ _ => rfl) (fun _ _ _ => rfl) hN heap pid hp rst xs hx len
  refine ⟨st', outs, e, fun i hi t ht => ?_⟩
  have := congrArg (·[t]?) (h i hi)
  simp only [List.getElem?_map, Layers.C89_rnn act _ _ len t ht, Option.map_some] at this
  obtain ⟨o, ho, h2⟩ := Option.map_eq_some_iff.mp this
  rw [ho]
  exact h2

/-- **C105, recurrent layers.** The same for an `LSTM` layer. -/
theorem C105_lstm (sigm tanh : K → K) {N : ℕ} (hN : 0 < N) (heap : ℕ → List (LstmParams K n m)) (pid : ℕ) (hp : (heap pid).length = N) (rst : Bool) (xs : ℕ → List (Fin n → K)) (hx : ∀ t, (xs t).length = N) (len : ℕ) :
    ∃ st' outs, run (lstmModule sigm tanh) id ⟨heap, none, none, ()⟩ (.setAll pid rst :: calls xs len) = .ok (st', outs) ∧
      ∀ i (hi : i < N), ∀ t < len, (outs[t]?.bind (·[i]?)) = some (lstmSpec sigm tanh ((heap pid)[i]'(by omega)) (fun t => (xs t)[i]'(by rw [hx]; exact hi)) (t + 1)).1 := by
  obtain ⟨st', outs, e, h⟩ := rows_unroll (lstm_good (n := n) (m := m) sigm tanh) (fun p => Layers.lstm sigm tanh p) (fun hc => .node none (.tensor hc.1) (.node none (.tensor hc.2) .nil)) (fun _ _ => rfl) (fun _ _ _ => rfl) hN heap pid hp rst xs hx len
  refine ⟨st', outs, e, fun i hi t ht => ?_⟩
  have := congrArg (·[t]?) (h i hi)
  simp only [List.getElem?_map, Layers.C89_lstm sigm tanh _ _ len t ht, Option.map_some] at this
  obtain ⟨o, ho, h2⟩ := Option.map_eq_some_iff.mp this
  rw [ho]
  exact h2

/-- Two networks with different parameters: row 1 adds up its inputs, row 0 doubles before it adds. -/
example : let p (w : ℚ) : RnnParams ℚ 1 1 := ⟨fun _ _ => 1, fun _ _ => w, fun _ => 0, fun _ => 0⟩
    ((run (rnnModule (fun x : ℚ => x)) id ⟨fun _ => [p 2, p 1], none, none, ()⟩ (.setAll 0 true :: calls (fun t => [fun _ => (t : ℚ) + 1, fun _ => (t : ℚ) + 1]) 3)).map fun r => r.2.map fun ys => ys.map fun y => y 0) =
      .ok [[1, 1], [4, 3], [11, 6]] := by
  decide +kernel

end EvoTorch.Policy
