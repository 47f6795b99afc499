import Verif.Proofs.CMemory
import Mathlib.Tactic.NormNum
import Mathlib.Tactic.Ring
/-!
C04 (reads return the last write), C05 (in-place arithmetic).
-/
namespace EvoTorch.CMemory
open EvoTorch.Spec.Memory (Key InRange update Write lastWrite)

variable {B d : Nat} {α : Type}

/-- A history of `set_` calls; a raised exception is caught by the caller and the history goes on. -/
def runSets (cfg : Cfg d) : Mem B d α → List (Write B d α) → Mem B d α
  | m, [] => m
  | m, w :: ws => runSets cfg (set cfg m w.key w.value (some w.mask)).state ws

/-- The results of the calls of a history. -/
def runResults (cfg : Cfg d) : Mem B d α → List (Write B d α) → List (Except PyErr Unit)
  | _, [] => []
  | m, w :: ws =>
    (set cfg m w.key w.value (some w.mask)).result :: runResults cfg (set cfg m w.key w.value (some w.mask)).state ws

/-- A write is acceptable if the keys of all selected items lie in the declared range. -/
def Acceptable (cfg : Cfg d) (w : Write B d α) : Prop := ∀ i, w.mask i = true → InRange cfg.numKeys cfg.offset (w.key i)

open Classical in
/-- **C04.** After any history of masked `set_` calls, some of which may have been refused because of an out-of-range key,
`get` returns for every item the value of the last accepted write to that item and key (or the initial contents). Each call
raises `KeyError` iff some selected key is out of range. (Keys of unselected items are required to be in range; see
`C04_unselected_key_can_raise`.) -/
theorem C04_get_returns_last_write_partial (cfg : Cfg d) (hpos : ∀ j, 0 < cfg.numKeys j) (m : Mem B d α)
    (ws : List (Write B d α))
    (hun : ∀ w ∈ ws, ∀ i, w.mask i = false → InRange cfg.numKeys cfg.offset (w.key i))
    (init : Fin B → Key d → α) (hinit : ∀ k, (∀ i : Fin B, InRange cfg.numKeys cfg.offset (k i)) →
      get cfg m k = .ok fun i => init i (k i)) :
    runResults cfg m ws = ws.map (fun w => if Acceptable cfg w then .ok () else .error .keyError) ∧
    ∀ key : Fin B → Key d, get cfg (runSets cfg m ws) key =
      if ∀ i, InRange cfg.numKeys cfg.offset (key i)
        then .ok fun i => lastWrite init (ws.filter fun w => Acceptable cfg w) i (key i)
        else .error .keyError := by
  have key' : ∀ (ws : List (Write B d α)) (m : Mem B d α) (init : Fin B → Key d → α),
      (∀ w ∈ ws, ∀ i, w.mask i = false → InRange cfg.numKeys cfg.offset (w.key i)) →
      (∀ i k, InRange cfg.numKeys cfg.offset k → toMap cfg m i k = init i k) →
      runResults cfg m ws = ws.map (fun w => if Acceptable cfg w then .ok () else .error .keyError) ∧
      (∀ i k, InRange cfg.numKeys cfg.offset k →
        toMap cfg (runSets cfg m ws) i k = lastWrite init (ws.filter fun w => Acceptable cfg w) i k) := by
    intro ws
    induction ws with
    | nil => intro m init _ h; exact ⟨rfl, h⟩
    | cons w ws ih =>
      intro m init hun h
      by_cases ha : Acceptable cfg w
      · have hk : ∀ i, InRange cfg.numKeys cfg.offset (w.key i) := by
          intro i
          cases hw : w.mask i with
          | true => exact ha i hw
          | false => exact hun w (by simp) i hw
        obtain ⟨h1, h2⟩ := modify_ok cfg hpos m w.key (some w.mask)
          (fun i old => doWhere (w.mask i) (w.value i) old) (fun i _ => w.value i) hk (by
            intro i x; simp [doWhere])
        obtain ⟨h3, h4⟩ := ih (set cfg m w.key w.value (some w.mask)).state
          (fun i k => if w.mask i = true ∧ w.key i = k then w.value i else init i k)
          (fun w hw => hun w (List.mem_cons_of_mem _ hw)) (by
            intro i k hkr
            refine (h2 i k hkr).trans ?_
            simp only [update, Option.getD_some, h i k hkr])
        have hres : (set cfg m w.key w.value (some w.mask)).result = .ok () := h1
        refine ⟨by simp [runResults, h3, ha, hres], ?_⟩
        intro i k hkr
        simp only [runSets, h4 i k hkr, List.filter_cons, ha, decide_true, if_true, lastWrite]
      · have he : set cfg m w.key w.value (some w.mask) = ⟨m, .error .keyError⟩ := by
          apply modify_err cfg hpos
          simpa [Acceptable] using ha
        obtain ⟨h3, h4⟩ := ih m init (fun w hw => hun w (List.mem_cons_of_mem _ hw)) h
        refine ⟨by simp [runResults, he, h3, ha], ?_⟩
        intro i k hkr
        simp only [runSets, he, h4 i k hkr, List.filter_cons, ha, decide_false]
        simp
  have hin : ∀ i k, InRange cfg.numKeys cfg.offset k → toMap cfg m i k = init i k := by
    intro i k hk
    have h1 := hinit (fun _ => k) (fun _ => hk)
    rw [get_ok cfg hpos m _ (fun _ => hk)] at h1
    exact congrFun (Except.ok.inj h1) i
  obtain ⟨h1, h2⟩ := key' ws m init hun hin
  refine ⟨h1, fun key => ?_⟩
  split
  · rename_i hk
    rw [get_ok cfg hpos _ _ hk]
    congr 1; funext i; exact h2 i _ (hk i)
  · rename_i hk
    exact get_err cfg hpos _ _ (by simpa using hk)

/-- Concrete case with an offset: keys `10, 11`, two writes, one of them refused. -/
example : let cfg : Cfg 1 := ⟨fun _ => 2, fun _ => 10⟩
    let m : Mem 2 1 Nat := fun _ _ => 0
    let ws : List (Write 2 1 Nat) := [⟨fun _ _ => 11, fun i => i.val + 5, fun i => i = 1⟩,
      ⟨fun i _ => if i = 0 then 12 else 10, fun _ => 9, fun _ => true⟩]
    runResults cfg m ws = [.ok (), .error .keyError] ∧
    (get cfg (runSets cfg m ws) fun _ _ => 11) = .ok (fun i => if i = 0 then 0 else 6) := by
  refine ⟨rfl, congrArg Except.ok ?_⟩
  funext i; revert i; decide

/-- **Unselected keys are not fully ignored**: an item whose mask is `False` but whose key lies far outside the declared range
makes the whole call raise `IndexError` (`_get_key` replaces such keys only for the verification, `structures.py:446-463`). -/
theorem C04_unselected_key_can_raise :
    (set (⟨fun _ => 2, fun _ => 0⟩ : Cfg 1) (fun _ _ => (0 : Nat) : Mem 2 1 Nat) (fun i _ => if i = 0 then 0 else 7)
      (fun _ => 1) (some fun i => i = 0)).result = .error .indexError := rfl

/-! ### C05 -/

/-- What an in-place operation must do: with all keys valid it succeeds and updates exactly the addressed slots of the selected
items by `f`; with an invalid selected key it raises `KeyError` and changes nothing. -/
def Performs (cfg : Cfg d) (m : Mem B d α) (key : Fin B → Key d) (w : Option (Fin B → Bool)) (f : Fin B → α → α)
    (o : Outcome (Mem B d α) Unit) : Prop :=
  ((∀ i, InRange cfg.numKeys cfg.offset (key i)) →
    o.result = .ok () ∧
    ∀ q : Fin B → Key d, (∀ i, InRange cfg.numKeys cfg.offset (q i)) →
      ∃ old new, get cfg m q = .ok old ∧ get cfg o.state q = .ok new ∧
        ∀ i, new i = if (w.getD fun _ => true) i = true ∧ q i = key i then f i (old i) else old i) ∧
  ((∃ i, (w.getD fun _ => true) i = true ∧ ¬ InRange cfg.numKeys cfg.offset (key i)) → o = ⟨m, .error .keyError⟩)

theorem performs_modify (cfg : Cfg d) (hpos : ∀ j, 0 < cfg.numKeys j) (m : Mem B d α) (key : Fin B → Key d)
    (w : Option (Fin B → Bool)) (g f : Fin B → α → α)
    (hg : ∀ i x, g i x = if (w.getD fun _ => true) i then f i x else x) :
    Performs cfg m key w f (modify cfg m key w g) := by
  refine ⟨fun hk => ?_, fun h => modify_err cfg hpos m key w g h⟩
  obtain ⟨h1, h2⟩ := modify_ok cfg hpos m key w g f hk hg
  refine ⟨h1, fun q hq => ⟨_, _, get_ok cfg hpos m q hq, get_ok cfg hpos _ q hq, fun i => ?_⟩⟩
  rw [h2 i _ (hq i)]
  simp only [update]
  by_cases h : key i = q i
  · simp [h]
  · simp [h, Ne.symm h]

/-- **C05 (partial).** `add_`, `subtract_`, `add_circular_` (with and without a mask) and masked `multiply_`/`divide_` do what they
say. Missing: `multiply_`/`divide_` without a mask, and `divide_` on integer memories, where the claim is false. -/
theorem C05_inplace_arithmetic_partial [Field α] (cfg : Cfg d) (hpos : ∀ j, 0 < cfg.numKeys j) (m : Mem B d α)
    (key : Fin B → Key d) (x : Fin B → α) (w : Option (Fin B → Bool)) (wm : Fin B → Bool) :
    Performs cfg m key w (fun i v => v + x i) (add cfg m key x w) ∧
    Performs cfg m key w (fun i v => v - x i) (subtract cfg m key x w) ∧
    Performs cfg m key (some wm) (fun i v => v * x i) (multiply cfg m key x (some wm)) ∧
    Performs cfg m key (some wm) (fun i v => v / x i) (divide cfg m key x (some wm)) := by
  refine ⟨?_, ?_, ?_, ?_⟩
  · apply performs_modify cfg hpos
    intro i v
    cases w with
    | none => simp
    | some w => cases h : w i <;> simp [doWhere, h]
  · apply performs_modify cfg hpos
    intro i v
    cases w with
    | none => simp; ring
    | some w => cases h : w i <;> simp [doWhere, h]; ring
  · apply performs_modify cfg hpos
    intro i v
    cases h : wm i <;> simp [doWhere, h]
  · apply performs_modify cfg hpos
    intro i v
    cases h : wm i <;> simp [doWhere, h, div_eq_mul_inv]

/-- **C05, circular addition** on integer memories, with and without a mask. -/
theorem C05_add_circular (cfg : Cfg d) (hpos : ∀ j, 0 < cfg.numKeys j) (m : Mem B d Int)
    (key : Fin B → Key d) (x md : Fin B → Int) (hmd : ∀ i, 0 < md i) (w : Option (Fin B → Bool)) :
    Performs cfg m key w (fun i v => (v + x i) % md i) (addCircular cfg m key x md w) := by
  apply performs_modify cfg hpos
  intro i v
  have := Int.fmod_eq_emod_of_nonneg (v + x i) (Int.le_of_lt (hmd i))
  cases w with
  | none => simp [this]
  | some w => cases h : w i <;> simp [doWhere, h, this]

/-- **C05, boolean memories**: addition is "or", multiplication is "and", with and without a mask; circular addition is refused. -/
theorem C05_bool (cfg : Cfg d) (hpos : ∀ j, 0 < cfg.numKeys j) (m : Mem B d Bool)
    (key : Fin B → Key d) (x : Fin B → Bool) (w : Option (Fin B → Bool)) :
    Performs cfg m key w (fun i v => v || x i) (addBool cfg m key x w) ∧
    Performs cfg m key w (fun i v => v && x i) (multiplyBool cfg m key x w) ∧
    ∃ e, addCircularBool cfg m key w = ⟨m, .error e⟩ := by
  refine ⟨?_, ?_, ?_⟩
  · apply performs_modify cfg hpos
    intro i v
    cases w with
    | none => simp
    | some w => cases h : w i <;> simp [h]
  · apply performs_modify cfg hpos
    intro i v
    cases w with
    | none => simp
    | some w => cases h : w i <;> simp [doWhere, h]
  · unfold addCircularBool; split
    · exact ⟨_, rfl⟩
    · exact ⟨_, rfl⟩

/-- A memory with two keys, to which all of the above applies. -/
example : (∀ j, 0 < (⟨fun _ => 2, fun _ => 10⟩ : Cfg 1).numKeys j) ∧
    InRange (d := 1) (fun _ => 2) (fun _ => 10) (fun _ => 11) ∧
    (get (⟨fun _ => 2, fun _ => 10⟩ : Cfg 1)
      (multiply (⟨fun _ => 2, fun _ => 10⟩ : Cfg 1) (fun _ _ => (3 : Int) : Mem 1 1 Int) (fun _ _ => 11) (fun _ => 4)
        (some fun _ => true)).state (fun _ _ => 11)) = .ok (fun _ => 12) :=
  ⟨fun _ => by simp, fun _ => by simp, rfl⟩

/-- **C05 is false of the code**: `multiply_` without a mask adds, on every memory (line 659). In particular `3 * 4` gives 7. -/
theorem C05_violated_multiply_unmasked [Field α] (cfg : Cfg d) (hpos : ∀ j, 0 < cfg.numKeys j) (m : Mem B d α)
    (key : Fin B → Key d) (x : Fin B → α) :
    Performs cfg m key none (fun i v => v + x i) (multiply cfg m key x none) ∧
    Performs cfg m key none (fun i v => v + (x i)⁻¹) (divide cfg m key x none) :=
  ⟨performs_modify cfg hpos m key none _ _ (by intro i v; simp),
   performs_modify cfg hpos m key none _ _ (by intro i v; simp)⟩

theorem C05_violated_multiply_unmasked_example :
    ¬ Performs (⟨fun _ => 1, fun _ => 0⟩ : Cfg 1) (fun _ _ => (3 : Rat) : Mem 1 1 Rat) (fun _ _ => 0) none
      (fun _ v => v * 4) (multiply (⟨fun _ => 1, fun _ => 0⟩ : Cfg 1) (fun _ _ => (3 : Rat)) (fun _ _ => 0) (fun _ => 4) none) := by
  intro h
  obtain ⟨_, h2⟩ := h.1 (fun _ _ => by simp)
  obtain ⟨old, new, h3, h4, h5⟩ := h2 (fun _ _ => 0) (fun _ _ => by simp)
  have h6 := congrFun (Except.ok.inj h3) 0
  have h7 := congrFun (Except.ok.inj h4) 0
  have h8 := h5 0
  simp at h8
  have h9 : new 0 = 3 + 4 := h7.symm
  have h10 : old 0 = 3 := h6.symm
  rw [h9, h10] at h8
  norm_num at h8

/-- **C05 is false of the code** for integer memories: masked `divide_` by 2 turns 8 into 0 (1/2 is truncated to 0 first). -/
theorem C05_violated_divide_integer :
    (get (⟨fun _ => 1, fun _ => 0⟩ : Cfg 1)
      (divideInt (⟨fun _ => 1, fun _ => 0⟩ : Cfg 1) (fun _ _ => (8 : Int) : Mem 1 1 Int) (fun _ _ => 0) (fun _ => 2)
        (some fun _ => true)).state (fun _ _ => 0)) = .ok (fun _ => 0) := by
  have h : truncToInt (1 / ((2 : Int) : Rat)) = 0 := by decide +kernel
  simp only [divideInt, h]
  rfl

end EvoTorch.CMemory
