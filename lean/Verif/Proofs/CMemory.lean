import Verif.Model.CMemory
/-!
Abstraction of the memory tensor to a map on keys.
-/
namespace EvoTorch.CMemory
open EvoTorch.Spec.Memory (Key InRange update)

variable {B d : Nat} {α : Type}

theorem keyOk_iff (cfg : Cfg d) (k : Key d) : keyOk cfg k = true ↔ InRange cfg.numKeys cfg.offset k := by
  simp only [keyOk, List.all_eq_true, List.mem_finRange, true_imp_iff, Bool.and_eq_true, decide_eq_true_eq, InRange]
  refine forall_congr' fun j => ?_
  omega

theorem badKey_iff (cfg : Cfg d) (hpos : ∀ j, 0 < cfg.numKeys j) (key : Fin B → Key d) (w : Fin B → Bool) :
    badKey cfg key w = true ↔ ∃ i, w i = true ∧ ¬ InRange cfg.numKeys cfg.offset (key i) := by
  have h0 : InRange cfg.numKeys cfg.offset cfg.offset := fun j => by have := hpos j; omega
  simp only [badKey, List.any_eq_true, List.mem_finRange, true_and, Bool.not_eq_true', ← Bool.not_eq_true, keyOk_iff]
  refine exists_congr fun i => ?_
  cases hw : w i <;> simp [h0]

theorem torchIndex_pos {n : Nat} {u : Int} (h0 : 0 ≤ u) (h1 : u < n) : torchIndex n u = some u.toNat := by
  simp [torchIndex, h0, h1]

theorem badAddress_false (cfg : Cfg d) (key : Fin B → Key d) (h : ∀ i, InRange cfg.numKeys cfg.offset (key i)) :
    badAddress cfg key = false := by
  rw [Bool.eq_false_iff]
  intro hb
  simp only [badAddress, List.any_eq_true, List.mem_finRange, true_and] at hb
  obtain ⟨i, j, hij⟩ := hb
  have := h i j
  rw [torchIndex_pos (by omega) (by omega)] at hij
  simp at hij

theorem address_inj (cfg : Cfg d) {k k' : Key d} (h : InRange cfg.numKeys cfg.offset k)
    (h' : InRange cfg.numKeys cfg.offset k') : address cfg k = address cfg k' ↔ k = k' := by
  constructor
  · intro he
    funext j
    have := congrFun he j
    have h1 := h j; have h2 := h' j
    simp only [address] at this
    rw [torchIndex_pos (by omega) (by omega), torchIndex_pos (by omega) (by omega)] at this
    simp only [Option.getD_some] at this
    omega
  · rintro rfl; rfl

/-- The map on keys that a memory tensor represents. -/
def toMap (cfg : Cfg d) (m : Mem B d α) : Fin B → Key d → α := fun i k => m i (address cfg k)

theorem get_ok (cfg : Cfg d) (hpos : ∀ j, 0 < cfg.numKeys j) (m : Mem B d α) (key : Fin B → Key d)
    (h : ∀ i, InRange cfg.numKeys cfg.offset (key i)) : get cfg m key = .ok fun i => toMap cfg m i (key i) := by
  have hb : badKey cfg key (fun _ => true) = false := by
    rw [Bool.eq_false_iff, ne_eq, badKey_iff cfg hpos]
    rintro ⟨i, _, hi⟩; exact hi (h i)
  simp [get, hb, badAddress_false cfg key h, toMap]

theorem get_err (cfg : Cfg d) (hpos : ∀ j, 0 < cfg.numKeys j) (m : Mem B d α) (key : Fin B → Key d)
    (h : ∃ i, ¬ InRange cfg.numKeys cfg.offset (key i)) : get cfg m key = .error .keyError := by
  obtain ⟨i, hi⟩ := h
  have hb : badKey cfg key (fun _ => true) = true := by
    rw [badKey_iff cfg hpos]; exact ⟨i, rfl, hi⟩
  simp [get, hb]

theorem modify_err (cfg : Cfg d) (hpos : ∀ j, 0 < cfg.numKeys j) (m : Mem B d α) (key : Fin B → Key d)
    (w : Option (Fin B → Bool)) (g : Fin B → α → α)
    (h : ∃ i, (w.getD fun _ => true) i = true ∧ ¬ InRange cfg.numKeys cfg.offset (key i)) :
    modify cfg m key w g = ⟨m, .error .keyError⟩ := by
  have := (badKey_iff cfg hpos key (w.getD fun _ => true)).mpr h
  simp [modify, this]

/-- If all keys are valid, a modification method whose per-item action is `f` on selected items and the identity on the others
updates exactly the addressed slots of the selected items. -/
theorem modify_ok (cfg : Cfg d) (hpos : ∀ j, 0 < cfg.numKeys j) (m : Mem B d α) (key : Fin B → Key d)
    (w : Option (Fin B → Bool)) (g f : Fin B → α → α)
    (hk : ∀ i, InRange cfg.numKeys cfg.offset (key i))
    (hg : ∀ i x, g i x = if (w.getD fun _ => true) i then f i x else x) :
    (modify cfg m key w g).result = .ok () ∧
    ∀ i k, InRange cfg.numKeys cfg.offset k →
      toMap cfg (modify cfg m key w g).state i k = update (toMap cfg m) key f (w.getD fun _ => true) i k := by
  have hb : badKey cfg key (w.getD fun _ => true) = false := by
    rw [Bool.eq_false_iff, ne_eq, badKey_iff cfg hpos]
    rintro ⟨i, _, hi⟩; exact hi (hk i)
  simp only [modify, hb, badAddress_false cfg key hk, Bool.false_eq_true, if_false, true_and]
  intro i k hkr
  simp only [toMap, assign, address_inj cfg hkr (hk i), update, hg]
  by_cases hkk : key i = k
  · subst hkk
    cases hw : (w.getD fun _ => true) i <;> simp
  · simp [hkk, Ne.symm hkk]

theorem set_ok (cfg : Cfg d) (hpos : ∀ j, 0 < cfg.numKeys j) (m : Mem B d α) (key : Fin B → Key d) (v : Fin B → α)
    (w : Option (Fin B → Bool)) (hk : ∀ i, InRange cfg.numKeys cfg.offset (key i)) :
    (set cfg m key v w).result = .ok () ∧
    ∀ i k, InRange cfg.numKeys cfg.offset k →
      toMap cfg (set cfg m key v w).state i k = update (toMap cfg m) key (fun i _ => v i) (w.getD fun _ => true) i k := by
  apply modify_ok cfg hpos _ _ _ _ _ hk
  intro i x
  cases w <;> simp [doWhere]

end EvoTorch.CMemory
