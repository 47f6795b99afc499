import Verif.Model.CList
import Verif.Spec.Deque
/-!
Helper lemmas for the ring buffer: the representation relation between a `Ring` and the list it holds.
-/
namespace EvoTorch.CList
open EvoTorch.Spec.Deque

variable {α : Type} {L : Int}

/-- The data position of the `j`-th element. -/
def pos (L : Int) (b : Int) (j : Nat) : Nat := (if b + j < L then b + j else b + j - L).toNat

/-- Number of elements of a non-empty ring. -/
def cnt (L : Int) (b e : Int) : Int := if b ≤ e then e - b + 1 else e - b + L + 1

/-- `Rep L r l`: the ring `r` holds exactly the list `l`. -/
structure Rep (L : Int) (r : Ring α) (l : List α) : Prop where
  empty : l = [] → r.beg = -1 ∧ r.fin = -1
  rng : l ≠ [] → 0 ≤ r.beg ∧ r.beg < L ∧ 0 ≤ r.fin ∧ r.fin < L
  len : l ≠ [] → (l.length : Int) = cnt L r.beg r.fin
  elt : ∀ j, j < l.length → l[j]? = some (r.data (pos L r.beg j))

theorem emod_small {x L : Int} (h0 : 0 ≤ x) (h1 : x < L) : x % L = x := Int.emod_eq_of_lt h0 h1

theorem emod_neg {x L : Int} (h0 : -L ≤ x) (h1 : x < 0) : x % L = x + L := by
  rw [← Int.add_emod_right]; exact emod_small (by omega) (by omega)

theorem emod_big {x L : Int} (h0 : L ≤ x) (h1 : x < 2 * L) : x % L = x - L := by
  rw [← Int.sub_emod_right]; exact emod_small (by omega) (by omega)

theorem rep_new (r : Ring α) (h : r.beg = -1 ∧ r.fin = -1) : Rep L r [] :=
  ⟨fun _ => h, fun h => absurd rfl h, fun h => absurd rfl h, fun j hj => by simp at hj⟩

section
variable {r : Ring α} {l : List α}

theorem Rep.isEmpty_iff (h : Rep L r l) : isEmpty r = true ↔ l = [] := by
  constructor
  · intro he
    by_cases hl : l = []
    · exact hl
    · have := (h.rng hl).1
      simp [isEmpty] at he; omega
  · intro hl; simp [isEmpty, (h.empty hl).1]

theorem Rep.length_pos (h : Rep L r l) (hl : l ≠ []) : 0 < l.length := List.length_pos_iff.mpr hl

theorem Rep.length_le (h : Rep L r l) (hL : 2 ≤ L) : (l.length : Int) ≤ L := by
  by_cases hl : l = []
  · subst hl; simp; omega
  · have h1 := h.len hl; have h2 := h.rng hl
    unfold cnt at h1; split at h1 <;> omega

theorem Rep.sub_emod (h : Rep L r l) (hl : l ≠ []) : (r.fin - r.beg) % L + 1 = l.length := by
  have h1 := h.len hl; have h2 := h.rng hl
  unfold cnt at h1
  split at h1
  · rw [emod_small (by omega) (by omega)]; omega
  · rw [emod_neg (by omega) (by omega)]; omega

theorem Rep.isFull_iff (h : Rep L r l) (hL : 2 ≤ L) : isFull L r = true ↔ (l.length : Int) = L := by
  by_cases hl : l = []
  · have := h.empty hl
    subst hl
    simp [isFull, this]; omega
  · have := h.sub_emod hl
    simp [isFull]; omega

theorem Rep.hasOne_iff (h : Rep L r l) (_hL : 2 ≤ L) : hasOne r = true ↔ l.length = 1 := by
  by_cases hl : l = []
  · have := h.empty hl
    subst hl
    simp [hasOne, this]
  · have h1 := h.len hl; have h2 := h.rng hl
    unfold cnt at h1
    simp [hasOne]
    split at h1 <;> omega

theorem Rep.length_spec (h : Rep L r l) (hL : 2 ≤ L) : length L r = l.length := by
  have hE := h.isEmpty_iff
  have hF := h.isFull_iff hL
  by_cases hl : l = []
  · have he := h.empty hl
    have h1 : isEmpty r = true := hE.mpr hl
    have h2 : isFull L r = false := by
      rw [Bool.eq_false_iff]; intro h; have := hF.mp h; subst hl; simp at this; omega
    simp [length, h1, h2, hl]
  · have h3 := h.sub_emod hl
    have h1 : isEmpty r = false := by rw [Bool.eq_false_iff]; intro h; exact hl (hE.mp h)
    simp only [length, h1]
    split
    · exact (hF.mp (by assumption)).symm
    · simpa using h3

/-- Which underlying keys are valid. -/
theorem Rep.valid_iff (h : Rep L r l) (u : Int) :
    isUnderlyingKeyValid L r u = true ↔ ∃ j, j < l.length ∧ u = (if r.beg + j < L then r.beg + j else r.beg + j - L) := by
  by_cases hl : l = []
  · have he := h.empty hl
    subst hl
    simp [isUnderlyingKeyValid, isEmpty, he]
  · have h1 := h.len hl; have h2 := h.rng hl
    have hne : isEmpty r = false := by
      rw [Bool.eq_false_iff]; intro h'; exact hl (h.isEmpty_iff.mp h')
    unfold cnt at h1
    simp only [isUnderlyingKeyValid, hne, Bool.and_eq_true, Bool.or_eq_true, decide_eq_true_eq, beq_iff_eq,
      Bool.not_false, true_and, and_true]
    constructor
    · intro hv
      by_cases hge : u ≥ r.beg
      · refine ⟨(u - r.beg).toNat, ?_, ?_⟩
        · split at h1 <;> omega
        · rw [if_pos (by omega)]; omega
      · refine ⟨(u - r.beg + L).toNat, ?_, ?_⟩
        · split at h1 <;> omega
        · rw [if_neg (by omega)]; omega
    · rintro ⟨j, hj, rfl⟩
      split at h1 <;> split <;> omega

/-- For keys within `[-L, L)` the key translation finds the Python index, and is valid exactly when Python would accept it. -/
theorem Rep.underlying_pos (h : Rep L r l) {k : Int} (hk0 : 0 ≤ k) (hkl : k < l.length) (hL : 2 ≤ L) :
    underlyingKey L r k = (if r.beg + k < L then r.beg + k else r.beg + k - L) := by
  have hl : l ≠ [] := by intro h; subst h; simp at hkl; omega
  have h1 := h.length_le hL; have h2 := h.rng hl
  simp only [underlyingKey, modUnderlyingKey, ge_iff_le, hk0, if_true, decide_eq_true_eq]
  split <;> split <;> split <;> omega

theorem Rep.underlying_neg (h : Rep L r l) {k : Int} (hk0 : k < 0) (hkl : -(l.length : Int) ≤ k) (hL : 2 ≤ L) :
    underlyingKey L r k = (if r.beg + (l.length + k) < L then r.beg + (l.length + k) else r.beg + (l.length + k) - L) := by
  have hl : l ≠ [] := by intro h; subst h; simp at hkl; omega
  have h1 := h.length_le hL; have h2 := h.rng hl; have h3 := h.len hl
  unfold cnt at h3
  simp only [underlyingKey, modUnderlyingKey, ge_iff_le, Int.not_le.mpr hk0, if_false, decide_eq_true_eq]
  split at h3 <;> split <;> split <;> split <;> omega

theorem Rep.underlying_some (h : Rep L r l) (hL : 2 ≤ L) {k : Int} {j : Nat} (hj : pyIndex l.length k = some j) :
    j < l.length ∧ underlyingKey L r k = (if r.beg + j < L then r.beg + j else r.beg + j - L) := by
  unfold pyIndex at hj
  split at hj
  · rename_i hk
    injection hj with hj
    refine ⟨by omega, ?_⟩
    rw [h.underlying_pos hk.1 hk.2 hL]
    have : (j : Int) = k := by omega
    rw [this]
  · split at hj
    · rename_i hk
      injection hj with hj
      refine ⟨by omega, ?_⟩
      rw [h.underlying_neg hk.2 hk.1 hL]
      have : (j : Int) = l.length + k := by omega
      rw [this]
    · exact absurd hj (by simp)

/-- Exactly which integer keys are accepted by a ring holding `l` (see property C03). -/
theorem Rep.accept_iff (h : Rep L r l) (hL : 2 ≤ L) (k : Int) :
    isUnderlyingKeyValid L r (underlyingKey L r k) = true ↔
      (-(l.length : Int) ≤ k ∧ k < l.length)
      ∨ (L ≤ k ∧ k - L < l.length ∧ r.beg + (k - L) < L)
      ∨ (k < -L ∧ -(k + L) ≤ l.length ∧ -(k + L) ≤ r.fin + 1) := by
  rw [h.valid_iff]
  by_cases hl : l = []
  · have he := h.empty hl
    subst hl
    simp only [List.length_nil]
    constructor
    · rintro ⟨j, hj, _⟩; omega
    · intro hh; exfalso; simp at hh; omega
  · have h1 := h.length_le hL; have h2 := h.rng hl; have h3 := h.len hl
    unfold cnt at h3
    simp only [underlyingKey, modUnderlyingKey, decide_eq_true_eq, ge_iff_le]
    constructor
    · rintro ⟨j, hj, hu⟩
      by_cases hk : 0 ≤ k
      · simp only [hk, if_true] at hu
        split at h3 <;> split at hu <;> split at hu <;> split at hu <;> omega
      · simp only [hk, if_false] at hu
        split at h3 <;> split at hu <;> split at hu <;> split at hu <;> omega
    · rintro (hh | hh | hh)
      · by_cases hk : 0 ≤ k
        · refine ⟨k.toNat, by omega, ?_⟩
          simp only [hk, if_true]
          split <;> split <;> split <;> omega
        · refine ⟨(l.length + k).toNat, by omega, ?_⟩
          simp only [hk, if_false]
          split at h3 <;> split <;> split <;> split <;> omega
      · refine ⟨(k - L).toNat, by omega, ?_⟩
        have hk : 0 ≤ k := by omega
        simp only [hk, if_true]
        split <;> split <;> split <;> omega
      · refine ⟨(l.length + (k + L)).toNat, by omega, ?_⟩
        have hk : ¬ 0 ≤ k := by omega
        simp only [hk, if_false]
        split at h3 <;> split <;> split <;> split <;> omega

theorem address_pos {u : Int} (h0 : 0 ≤ u) (h1 : u < L) : address L u = some u.toNat := by
  unfold address; rw [if_pos ⟨h0, h1⟩]

/-- With keys in `[-L, L)` the address never falls outside of the data tensor, even for empty rings. -/
theorem Rep.address_isSome (h : Rep L r l) (hL : 2 ≤ L) {k : Int} (hk : -L ≤ k ∧ k < L) :
    (address L (underlyingKey L r k)).isSome := by
  have : (-1 ≤ r.beg ∧ r.beg < L ∧ -1 ≤ r.fin ∧ r.fin < L) := by
    by_cases hl : l = []
    · have := h.empty hl; omega
    · have := h.rng hl; omega
  have hu : -L ≤ underlyingKey L r k ∧ underlyingKey L r k < L := by
    simp only [underlyingKey, modUnderlyingKey, decide_eq_true_eq, ge_iff_le]
    split <;> split <;> split <;> omega
  unfold address
  by_cases h0 : 0 ≤ underlyingKey L r k
  · rw [if_pos ⟨h0, hu.2⟩]; rfl
  · rw [if_neg (fun h => h0 h.1), if_pos ⟨hu.1, by omega⟩]; rfl

theorem Rep.pos_lt (h : Rep L r l) (hL : 2 ≤ L) {j : Nat} (hj : j < l.length) : (pos L r.beg j : Int) < L := by
  have hl : l ≠ [] := by intro h; subst h; simp at hj
  have h1 := h.length_le hL; have h2 := h.rng hl
  unfold pos; split <;> omega

theorem Rep.address_at (h : Rep L r l) (hL : 2 ≤ L) {j : Nat} (hj : j < l.length) :
    address L (if r.beg + j < L then r.beg + j else r.beg + j - L) = some (pos L r.beg j) := by
  have hl : l ≠ [] := by intro h; subst h; simp at hj
  have h1 := h.length_le hL; have h2 := h.rng hl
  rw [address_pos]
  · rfl
  · split <;> omega
  · split <;> omega

theorem Rep.read (h : Rep L r l) (hL : 2 ≤ L) {j : Nat} (hj : j < l.length) :
    readAt L r (if r.beg + j < L then r.beg + j else r.beg + j - L) = l[j] := by
  have h1 := h.elt j hj
  unfold readAt
  rw [h.address_at hL hj]
  simp only [Option.getD_some]
  rw [List.getElem?_eq_getElem hj] at h1
  exact (Option.some.inj h1).symm

theorem Rep.pos_inj (h : Rep L r l) (hL : 2 ≤ L) {i j : Nat} (hi : i < l.length) (hj : j < l.length)
    (he : pos L r.beg i = pos L r.beg j) : i = j := by
  have hl : l ≠ [] := by intro h; subst h; simp at hj
  have h1 := h.length_le hL; have h2 := h.rng hl
  unfold pos at he
  split at he <;> split at he <;> omega

/-- Rewriting the data of position `j` of a represented list. -/
theorem Rep.write (h : Rep L r l) (hL : 2 ≤ L) {j : Nat} (hj : j < l.length) (x : α) :
    Rep L (writeAt L r (if r.beg + j < L then r.beg + j else r.beg + j - L) x) (l.set j x) := by
  have hl : l ≠ [] := by intro h; subst h; simp at hj
  have h1 := h.length_le hL; have h2 := h.rng hl
  refine ⟨?_, ?_, ?_, ?_⟩
  · intro h; simp at h; exact absurd h hl
  · intro _; exact h2
  · intro _; rw [List.length_set]; exact h.len hl
  · intro i hi
    simp only [List.length_set] at hi
    simp only [writeAt, h.address_at hL hj, Option.getD_some]
    rw [List.getElem?_set]
    by_cases hij : j = i
    · subst hij
      simp [hj]
    · have hne : pos L r.beg i ≠ pos L r.beg j := fun he => hij (h.pos_inj hL hi hj he).symm
      rw [if_neg hij, if_neg hne]
      exact h.elt i hi

/-- Rewriting the same value at any address leaves the represented list unchanged. -/
theorem Rep.rewrite (h : Rep L r l) (u : Int) : Rep L (writeAt L r u (readAt L r u)) l := by
  refine ⟨h.empty, h.rng, h.len, ?_⟩
  intro j hj
  rw [h.elt j hj]
  simp only [writeAt, readAt]
  split
  · rename_i he; rw [he]
  · rfl

theorem Rep.moveEndForward_true (h : Rep L r l) (hL : 2 ≤ L) (hlt : (l.length : Int) < L) :
    Rep L (moveEndForward L r true) (l ++ [(moveEndForward L r true).data (pos L (moveEndForward L r true).beg l.length)]) := by
  have hE := h.isEmpty_iff
  have hF := h.isFull_iff hL
  have hf : isFull L r = false := by rw [Bool.eq_false_iff]; intro h'; have := hF.mp h'; omega
  by_cases hl : l = []
  · have he := h.empty hl
    have h1 : isEmpty r = true := hE.mpr hl
    subst hl
    simp only [moveEndForward, h1, hf]
    refine ⟨?_, ?_, ?_, ?_⟩
    · intro h; simp at h
    · intro _; simp; omega
    · intro _; simp [cnt]
    · intro j hj
      simp at hj; subst hj; simp
  · have h1 : isEmpty r = false := by rw [Bool.eq_false_iff]; intro h'; exact hl (hE.mp h')
    have h2 := h.rng hl; have h3 := h.len hl
    have h4 : (r.fin + 1) % L = if r.fin + 1 < L then r.fin + 1 else 0 := by
      split
      · exact emod_small (by omega) (by omega)
      · rw [emod_big (by omega) (by omega)]; omega
    simp only [moveEndForward, h1, hf, Bool.not_false, Bool.and_self, Bool.false_and, if_true, Bool.false_eq_true,
      if_false]
    refine ⟨?_, ?_, ?_, ?_⟩
    · intro h; simp at h
    · intro _; simp only [h4]; split <;> omega
    · intro _
      simp only [List.length_append, List.length_singleton, h4]
      unfold cnt at h3 ⊢
      split at h3 <;> split <;> split <;> omega
    · intro j hj
      simp only [List.length_append, List.length_singleton] at hj
      by_cases hjl : j < l.length
      · rw [List.getElem?_append_left hjl]; exact h.elt j hjl
      · have : j = l.length := by omega
        subst this; simp

theorem moveEndForward_false : moveEndForward L r false = r := by simp [moveEndForward]
theorem moveBeginBackward_false : moveBeginBackward L r false = r := by simp [moveBeginBackward]
theorem moveEndBackward_false : moveEndBackward L r false = r := by simp [moveEndBackward]
theorem moveBeginForward_false : moveBeginForward L r false = r := by simp [moveBeginForward]

theorem Rep.moveBeginBackward_true (h : Rep L r l) (hL : 2 ≤ L) (hlt : (l.length : Int) < L) :
    Rep L (moveBeginBackward L r true) ((moveBeginBackward L r true).data (pos L (moveBeginBackward L r true).beg 0) :: l) := by
  have hE := h.isEmpty_iff
  have hF := h.isFull_iff hL
  have hf : isFull L r = false := by rw [Bool.eq_false_iff]; intro h'; have := hF.mp h'; omega
  by_cases hl : l = []
  · have he := h.empty hl
    have h1 : isEmpty r = true := hE.mpr hl
    subst hl
    simp only [moveBeginBackward, h1, hf]
    refine ⟨?_, ?_, ?_, ?_⟩
    · intro h; simp at h
    · intro _; simp; omega
    · intro _; simp [cnt]
    · intro j hj
      simp at hj; subst hj; simp
  · have h1 : isEmpty r = false := by rw [Bool.eq_false_iff]; intro h'; exact hl (hE.mp h')
    have h2 := h.rng hl; have h3 := h.len hl
    have h4 : (r.beg + -1) % L = if r.beg = 0 then L - 1 else r.beg - 1 := by
      split
      · rw [emod_neg (by omega) (by omega)]; omega
      · rw [emod_small (by omega) (by omega)]; omega
    simp only [moveBeginBackward, h1, hf, Bool.not_false, Bool.and_self, Bool.false_and, if_true, Bool.false_eq_true,
      if_false]
    refine ⟨?_, ?_, ?_, ?_⟩
    · intro h; simp at h
    · intro _; simp only [h4]; split <;> omega
    · intro _
      simp only [List.length_cons, h4]
      unfold cnt at h3 ⊢
      split at h3 <;> split <;> split <;> omega
    · intro j hj
      simp only [List.length_cons] at hj
      cases j with
      | zero => simp
      | succ j =>
        simp only [List.getElem?_cons_succ]
        rw [h.elt j (by omega)]
        congr 2
        simp only [pos, h4]
        split <;> split <;> split <;> omega

theorem Rep.moveEndBackward_true (h : Rep L r l) (hL : 2 ≤ L) (hl : l ≠ []) :
    Rep L (moveEndBackward L r true) l.dropLast := by
  have hH := h.hasOne_iff hL
  have h1 : isEmpty r = false := by rw [Bool.eq_false_iff]; intro h'; exact hl (h.isEmpty_iff.mp h')
  have h2 := h.rng hl; have h3 := h.len hl
  by_cases hone : l.length = 1
  · have ho : hasOne r = true := hH.mpr hone
    have hd : l.dropLast = [] := by
      apply List.length_eq_zero_iff.mp; simp [hone]
    rw [hd]
    apply rep_new
    simp [moveEndBackward, ho]
  · have ho : hasOne r = false := by rw [Bool.eq_false_iff]; intro h'; exact hone (hH.mp h')
    have hp := h.length_pos hl
    have h4 : (r.fin + -1) % L = if r.fin = 0 then L - 1 else r.fin - 1 := by
      split
      · rw [emod_neg (by omega) (by omega)]; omega
      · rw [emod_small (by omega) (by omega)]; omega
    simp only [moveEndBackward, h1, ho, Bool.not_false, Bool.and_self, Bool.false_and, if_true, Bool.false_eq_true,
      if_false]
    refine ⟨?_, ?_, ?_, ?_⟩
    · intro h; exfalso
      have := congrArg List.length h
      simp at this; omega
    · intro _; simp only [h4]; split <;> omega
    · intro _
      simp only [List.length_dropLast, h4]
      unfold cnt at h3 ⊢
      split at h3 <;> split <;> split <;> omega
    · intro j hj
      simp only [List.length_dropLast] at hj
      rw [List.getElem?_dropLast]
      rw [if_pos hj]
      exact h.elt j (by omega)

theorem Rep.moveBeginForward_true (h : Rep L r l) (hL : 2 ≤ L) (hl : l ≠ []) :
    Rep L (moveBeginForward L r true) l.tail := by
  have hH := h.hasOne_iff hL
  have h1 : isEmpty r = false := by rw [Bool.eq_false_iff]; intro h'; exact hl (h.isEmpty_iff.mp h')
  have h2 := h.rng hl; have h3 := h.len hl
  by_cases hone : l.length = 1
  · have ho : hasOne r = true := hH.mpr hone
    have hd : l.tail = [] := by
      apply List.length_eq_zero_iff.mp; simp [hone]
    rw [hd]
    apply rep_new
    simp [moveBeginForward, ho]
  · have ho : hasOne r = false := by rw [Bool.eq_false_iff]; intro h'; exact hone (hH.mp h')
    have hp := h.length_pos hl
    have h4 : (r.beg + 1) % L = if r.beg + 1 < L then r.beg + 1 else 0 := by
      split
      · exact emod_small (by omega) (by omega)
      · rw [emod_big (by omega) (by omega)]; omega
    simp only [moveBeginForward, h1, ho, Bool.not_false, Bool.and_self, Bool.false_and, if_true, Bool.false_eq_true,
      if_false]
    refine ⟨?_, ?_, ?_, ?_⟩
    · intro h; exfalso
      have := congrArg List.length h
      simp at this; omega
    · intro _; simp only [h4]; split <;> omega
    · intro _
      simp only [List.length_tail, h4]
      unfold cnt at h3 ⊢
      split at h3 <;> split <;> split <;> omega
    · intro j hj
      simp only [List.length_tail] at hj
      rw [List.getElem?_tail]
      rw [h.elt (j + 1) (by omega)]
      refine congrArg (fun n => some (r.data n)) ?_
      have hc : ((j + 1 : Nat) : Int) = j + 1 := by omega
      have hle := h.length_le hL
      simp only [pos, h4, hc]
      by_cases hb : r.beg + 1 < L
      · simp only [hb, if_true]
        split <;> split <;> omega
      · simp only [hb, if_false]
        split <;> split <;> omega

end
end EvoTorch.CList
