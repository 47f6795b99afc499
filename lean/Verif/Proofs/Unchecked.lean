import Verif.Model.Unchecked
import Verif.Spec.LenientDeque
import Verif.Proofs.CListHistory
import Mathlib.Tactic.Common
/-!
Helper lemmas for the structures with `verify=False`.
-/
namespace EvoTorch.Unchecked
open EvoTorch EvoTorch.CList
open EvoTorch.Spec.Deque (Op Out)
open EvoTorch.Spec.LenientDeque

variable {α : Type} {B : Nat} {L : Int}

/-! ### `verify=True` is the model of `Verif.Model.CList` -/

theorem listExec_true (fb : α) (c : Batch B α) (op : CList.Call B α) : listExec true L fb c op = CList.exec L fb c op := by
  cases op <;> rfl

theorem listRun_true (fb : α) (ops : List (CList.Call B α)) (c : Batch B α) :
    listRun true L fb c ops = (CList.run L fb c ops, CList.runState L fb c ops) := by
  induction ops generalizing c with
  | nil => rfl
  | cons op ops ih => simp only [listRun, listExec_true, ih, CList.run, CList.runState]

/-! ### Where both accept, they do the same -/

/-- The bounds of `_begin` and `_end`. -/
def InRange (L : Int) (r : CList.Ring α) : Prop := -1 ≤ r.beg ∧ r.beg < L ∧ -1 ≤ r.fin ∧ r.fin < L

theorem address_mod (hL : 1 ≤ L) {x : Int} {a : Nat} (h : CList.address L (modUnderlyingKey L x) = some a) : CList.address L (x % L) = some a := by
  have h0 := Int.emod_nonneg x (show L ≠ 0 by omega)
  have h1 := Int.emod_lt_of_pos x (show 0 < L by omega)
  rw [address_pos h0 h1, ← h]
  have hm : modUnderlyingKey L x = if x < 0 then x + L else if x ≥ L then x - L else x := by
    simp only [modUnderlyingKey, decide_eq_true_eq]
    split <;> split <;> first | rfl | omega
  rw [hm] at h ⊢
  unfold CList.address at h ⊢
  by_cases hx : x < 0
  · simp only [if_pos hx] at h ⊢
    by_cases h2 : 0 ≤ x + L ∧ x + L < L
    · rw [if_pos h2, emod_neg (by omega) hx]
    · rw [if_neg h2] at h ⊢
      by_cases h3 : -L ≤ x + L ∧ x + L < 0
      · rw [if_pos h3, ← Int.add_emod_right, emod_neg (by omega) (by omega)]
      · rw [if_neg h3] at h; simp at h
  · simp only [if_neg hx] at h ⊢
    by_cases h4 : x ≥ L
    · simp only [if_pos h4] at h ⊢
      by_cases h2 : 0 ≤ x - L ∧ x - L < L
      · rw [if_pos h2, emod_big (by omega) (by omega)]
      · rw [if_neg h2, if_neg (by omega)] at h; simp at h
    · simp only [if_neg h4] at h ⊢
      rw [if_pos (by omega), emod_small (by omega) (by omega)]

theorem modKey_eq (hL : 1 ≤ L) {x : Int} (h : -L ≤ x ∧ x < 2 * L) : x % L = modUnderlyingKey L x := by
  simp only [modUnderlyingKey, decide_eq_true_eq]
  by_cases h1 : x < 0
  · rw [emod_neg (by omega) h1]; simp [h1]; omega
  · by_cases h2 : x ≥ L
    · rw [emod_big (by omega) (by omega)]; simp [h1, h2]
    · rw [emod_small (by omega) (by omega)]; simp [h1]; omega

theorem badAddress_mod (hL : 1 ≤ L) {c : Batch B α} {key : Fin B → Int} (h : listBadAddress true L c key = false) :
    listBadAddress false L c key = false ∧ ∀ i, CList.address L (listKey false L (c i) (key i)) = CList.address L (listKey true L (c i) (key i)) := by
  unfold listBadAddress at *
  rw [anyB_false] at h
  have key' : ∀ i, CList.address L (listKey false L (c i) (key i)) = CList.address L (listKey true L (c i) (key i)) := by
    intro i
    have hi := h i
    cases ha : CList.address L (listKey true L (c i) (key i)) with
    | none => rw [ha] at hi; simp at hi
    | some a => exact address_mod hL ha
  refine ⟨?_, key'⟩
  rw [anyB_false]
  intro i
  rw [key' i]; exact h i

theorem getDefault_mod (hL : 1 ≤ L) {c : Batch B α} (hr : ∀ i, InRange L (c i)) {key : Fin B → Int} (hk : ∀ i, -L ≤ key i ∧ key i < L) (d : Fin B → α) :
    listGetDefault false L c key d = listGetDefault true L c key d := by
  funext i
  have hki : listKey false L (c i) (key i) = listKey true L (c i) (key i) := by
    have h1 := hr i; have h2 := hk i
    unfold InRange at h1
    unfold listKey modKey
    simp only [Bool.false_eq_true, if_false, if_true]
    apply modKey_eq hL
    split <;> omega
  simp only [listGetDefault, hki]

theorem modify_mod (hL : 1 ≤ L) {c : Batch B α} {key : Fin B → Int} {f : Fin B → α → α} {w : Fin B → Bool} {u : Unit}
    (h : (listModify true L c key f w).result = .ok u) : listModify false L c key f w = listModify true L c key f w := by
  unfold listModify at h ⊢
  by_cases h1 : listBadKey true L c key w = true
  · simp [h1] at h
  by_cases h2 : listBadAddress true L c key = true
  · simp [h1, h2] at h
  simp only [Bool.not_eq_true] at h1 h2
  obtain ⟨h3, h4⟩ := badAddress_mod hL h2
  have h5 : listBadKey false L c key w = false := rfl
  simp only [h1, h2, h3, h5, Bool.false_eq_true, if_false]
  congr 1
  funext i
  simp only [writeAt, readAt, h4 i]

theorem get_mod (hL : 1 ≤ L) {c : Batch B α} {key : Fin B → Int} {f : Fin B → α}
    (h : listGet true L c key = .ok f) : listGet false L c key = .ok f := by
  unfold listGet at h ⊢
  by_cases h1 : listBadKey true L c key (fun _ => true) = true
  · simp [h1] at h
  by_cases h2 : listBadAddress true L c key = true
  · simp [h1, h2] at h
  simp only [Bool.not_eq_true] at h1 h2
  obtain ⟨h3, h4⟩ := badAddress_mod hL h2
  have h5 : listBadKey false L c key (fun _ => true) = false := rfl
  simp only [h1, h2, h3, h5, Bool.false_eq_true, if_false] at h ⊢
  rw [← h]
  congr 1
  funext i
  simp only [readAt, h4 i]

theorem range_modify {v : Bool} {c : Batch B α} {key : Fin B → Int} {f : Fin B → α → α} {w : Fin B → Bool} (hr : ∀ i, InRange L (c i)) (i : Fin B) :
    InRange L ((listModify v L c key f w).state i) := by
  unfold listModify
  split
  · exact hr i
  · split
    · exact hr i
    · exact hr i

theorem range_move (hL : 1 ≤ L) {r : CList.Ring α} (hr : InRange L r) (w : Bool) :
    InRange L (moveEndForward L r w) ∧ InRange L (moveBeginBackward L r w) ∧ InRange L (moveEndBackward L r w) ∧ InRange L (moveBeginForward L r w) := by
  have hm : ∀ x : Int, -1 ≤ x % L ∧ x % L < L := fun x =>
    ⟨by have := Int.emod_nonneg x (show L ≠ 0 by omega); omega, Int.emod_lt_of_pos x (by omega)⟩
  unfold InRange at hr
  refine ⟨?_, ?_, ?_, ?_⟩
  · unfold InRange moveEndForward
    have := hm ((if (isEmpty r && w) = true then ({ r with beg := 0, fin := 0 } : CList.Ring α) else r).fin + 1)
    simp only
    split <;> split <;> simp_all <;> omega
  · unfold InRange moveBeginBackward
    have := hm ((if (isEmpty r && w) = true then ({ r with beg := 0, fin := 0 } : CList.Ring α) else r).beg + -1)
    simp only
    split <;> split <;> simp_all <;> omega
  · unfold InRange moveEndBackward
    have := hm ((if (hasOne r && w) = true then ({ r with beg := -1, fin := -1 } : CList.Ring α) else r).fin + -1)
    simp only
    split <;> split <;> simp_all <;> omega
  · unfold InRange moveBeginForward
    have := hm ((if (hasOne r && w) = true then ({ r with beg := -1, fin := -1 } : CList.Ring α) else r).beg + 1)
    simp only
    split <;> split <;> simp_all <;> omega

theorem range_exec (hL : 1 ≤ L) (v : Bool) (fb : α) {c : Batch B α} (hr : ∀ i, InRange L (c i)) (op : CList.Call B α) (i : Fin B) :
    InRange L ((listExec v L fb c op).state i) := by
  cases op with
  | append x w =>
    simp only [listExec, listAppend]
    split
    · exact hr i
    · exact range_modify (fun j => (range_move hL (hr j) (w j)).1) i
  | appendLeft x w =>
    simp only [listExec, listAppendLeft]
    split
    · exact hr i
    · exact range_modify (fun j => (range_move hL (hr j) (w j)).2.1) i
  | pop w =>
    simp only [listExec, listPop]
    split
    · exact hr i
    · exact (range_move hL (hr i) (w i)).2.2.1
  | popLeft w =>
    simp only [listExec, listPopLeft]
    split
    · exact hr i
    · exact (range_move hL (hr i) (w i)).2.2.2
  | get k => exact hr i
  | getDefault k d => exact hr i
  | set k x w => exact range_modify hr i
  | modify k f w => exact range_modify hr i
  | length => exact hr i
  | clear => simp only [listExec, CList.clear, InRange]; omega

theorem map_ok' {ε β γ : Type} {e : Except ε β} {f : β → γ} {y : γ} (h : e.map f = .ok y) : ∃ x, e = .ok x := by
  cases e with
  | error e => simp [Except.map] at h
  | ok x => exact ⟨x, rfl⟩

/-- One call accepted with `verify=True`. -/
theorem exec_mod (hL : 1 ≤ L) (fb : α) {c : Batch B α} (hr : ∀ i, InRange L (c i)) (op : CList.Call B α)
    (hk : ∀ k d, op = .getDefault k d → ∀ i, -L ≤ k i ∧ k i < L) {y : Fin B → Out α}
    (h : (listExec true L fb c op).result = .ok y) : listExec false L fb c op = listExec true L fb c op := by
  cases op with
  | append x w =>
    simp only [listExec, listAppend] at h ⊢
    by_cases hf : anyB (fun i => isFull L (c i) && w i) = true
    · simp [hf, Except.map] at h
    · simp only [hf, Bool.true_and, Bool.false_and, Bool.false_eq_true, if_false] at h ⊢
      obtain ⟨u, hu⟩ := map_ok' h
      rw [modify_mod hL hu]
  | appendLeft x w =>
    simp only [listExec, listAppendLeft] at h ⊢
    by_cases hf : anyB (fun i => isFull L (c i) && w i) = true
    · simp [hf, Except.map] at h
    · simp only [hf, Bool.true_and, Bool.false_and, Bool.false_eq_true, if_false] at h ⊢
      obtain ⟨u, hu⟩ := map_ok' h
      rw [modify_mod hL hu]
  | pop w =>
    simp only [listExec, listPop] at h ⊢
    by_cases hf : anyB (fun i => isEmpty (c i) && w i) = true
    · simp [hf, Except.map] at h
    · simp only [hf, Bool.true_and, Bool.false_and, Bool.false_eq_true, if_false]
      rw [getDefault_mod hL hr (fun _ => by omega)]
  | popLeft w =>
    simp only [listExec, listPopLeft] at h ⊢
    by_cases hf : anyB (fun i => isEmpty (c i) && w i) = true
    · simp [hf, Except.map] at h
    · simp only [hf, Bool.true_and, Bool.false_and, Bool.false_eq_true, if_false]
      rw [getDefault_mod hL hr (fun _ => by omega)]
  | get k =>
    simp only [listExec] at h ⊢
    obtain ⟨f, hf⟩ := map_ok' h
    rw [get_mod hL hf, hf]
  | getDefault k d =>
    simp only [listExec]
    rw [getDefault_mod hL hr (hk k d rfl)]
  | set k x w =>
    simp only [listExec] at h ⊢
    obtain ⟨u, hu⟩ := map_ok' h
    rw [modify_mod hL hu]
  | modify k f w =>
    simp only [listExec] at h ⊢
    obtain ⟨u, hu⟩ := map_ok' h
    rw [modify_mod hL hu]
  | length => rfl
  | clear => rfl

/-! ### The list which never refuses -/

section
variable {r : CList.Ring α} {l : List α} {cap : Nat}

theorem key_emod (hcap : (cap : Int) = L) (hL : 2 ≤ L) (h : Rep L r l) (hl : l ≠ []) (k : Int) :
    (∃ j, place cap l.length k = some j ∧ j < l.length ∧ listKey false L r k = (if r.beg + j < L then r.beg + j else r.beg + j - L))
    ∨ (place cap l.length k = none ∧ ¬ ∃ j : Nat, j < l.length ∧ listKey false L r k = (if r.beg + j < L then r.beg + j else r.beg + j - L)) := by
  subst hcap
  have h1 := h.length_le hL; have h2 := h.rng hl; have h3 := h.len hl
  unfold cnt at h3
  unfold place
  by_cases hk : 0 ≤ k
  · have hm0 := Int.emod_nonneg k (show (cap : Int) ≠ 0 by omega)
    have hm1 := Int.emod_lt_of_pos k (show (0 : Int) < cap by omega)
    have hu : listKey false (cap : Int) r k = if r.beg + k % cap < cap then r.beg + k % cap else r.beg + k % cap - cap := by
      simp only [listKey, modKey, ge_iff_le, hk, if_true, Bool.false_eq_true, if_false]
      rw [← Int.add_emod_emod r.beg k]
      split
      · exact emod_small (by omega) (by omega)
      · exact emod_big (by omega) (by omega)
    generalize k % (cap : Int) = m at *
    rw [hu]
    simp only [hk, if_true]
    by_cases hj : m.toNat < l.length
    · left
      refine ⟨m.toNat, by simp [hj], hj, ?_⟩
      have : ((m.toNat : Nat) : Int) = m := by omega
      rw [this]
    · right
      refine ⟨by simp [hj], ?_⟩
      rintro ⟨j, hj1, hj2⟩
      split at hj2 <;> split at hj2 <;> omega
  · have hm0 := Int.emod_nonneg (-k - 1) (show (cap : Int) ≠ 0 by omega)
    have hm1 := Int.emod_lt_of_pos (-k - 1) (show (0 : Int) < cap by omega)
    have hu : listKey false (cap : Int) r k = if 0 ≤ r.fin - (-k - 1) % cap then r.fin - (-k - 1) % cap else r.fin - (-k - 1) % cap + cap := by
      simp only [listKey, modKey, ge_iff_le, hk, if_false, Bool.false_eq_true]
      have he : r.fin + k + 1 = r.fin - (-k - 1) := by omega
      rw [he, ← Int.sub_emod_emod r.fin (-k - 1)]
      split
      · exact emod_small (by omega) (by omega)
      · exact emod_neg (by omega) (by omega)
    generalize (-k - 1) % (cap : Int) = m at *
    rw [hu]
    simp only [hk, if_false]
    by_cases hj : m.toNat < l.length
    · left
      refine ⟨l.length - 1 - m.toNat, by simp [hj], by omega, ?_⟩
      have : ((l.length - 1 - m.toNat : Nat) : Int) = l.length - 1 - m := by omega
      rw [this]
      split at h3 <;> split <;> split <;> omega
    · right
      refine ⟨by simp [hj], ?_⟩
      rintro ⟨j, hj1, hj2⟩
      split at h3 <;> split at hj2 <;> split at hj2 <;> omega

theorem place_nil (k : Int) : place cap 0 k = none := by
  unfold place; split <;> simp

theorem key_range (hL : 2 ≤ L) (r : CList.Ring α) (k : Int) : 0 ≤ listKey false L r k ∧ listKey false L r k < L := by
  simp only [listKey, modKey, Bool.false_eq_true, if_false]
  exact ⟨Int.emod_nonneg _ (by omega), Int.emod_lt_of_pos _ (by omega)⟩

/-- Rewriting a position which holds no element. -/
theorem write_unused (hcap : (cap : Int) = L) (hL : 2 ≤ L) (h : Rep L r l) {k : Int} (hp : place cap l.length k = none) (x : α) :
    Rep L (writeAt L r (listKey false L r k) x) l := by
  by_cases hl : l = []
  · subst hl; exact rep_new _ (h.empty rfl)
  · rcases key_emod hcap hL h hl k with ⟨j, hj, _⟩ | ⟨_, hn⟩
    · rw [hp] at hj; simp at hj
    · refine ⟨h.empty, h.rng, h.len, ?_⟩
      intro j hj
      have hr := key_range hL r k
      simp only [writeAt, address_pos hr.1 hr.2, Option.getD_some]
      rw [if_neg, h.elt j hj]
      intro he
      apply hn
      refine ⟨j, hj, ?_⟩
      have h2 := h.rng hl
      have h1 := h.length_le hL
      unfold pos at he
      split at he <;> split <;> omega

theorem modify_place (hcap : (cap : Int) = L) (hL : 2 ≤ L) (h : Rep L r l) (k : Int) (f : α → α) :
    Rep L (writeAt L r (listKey false L r k) (f (readAt L r (listKey false L r k)))) (next cap l (.modify k f)) := by
  cases hp : place cap l.length k with
  | none => simp only [next, hp]; exact write_unused hcap hL h hp _
  | some j =>
    have hl : l ≠ [] := by intro hl; subst hl; rw [List.length_nil, place_nil] at hp; simp at hp
    rcases key_emod hcap hL h hl k with ⟨j', hj', hlt, hu⟩ | ⟨hn, _⟩
    · have : j' = j := by rw [hp] at hj'; exact (Option.some.inj hj').symm
      subst this
      simp only [next, hp]
      rw [hu, h.read hL hlt, modify_eq_set l j' f hlt]
      exact h.write hL hlt _
    · rw [hp] at hn; simp at hn

theorem getDefault_place (hcap : (cap : Int) = L) (hL : 2 ≤ L) {c : Batch B α} {i : Fin B} (h : Rep L (c i) l) (key : Fin B → Int) (d : Fin B → α) :
    listGetDefault false L c key d i = ((place cap l.length (key i)).bind fun j => l[j]?).getD (d i) := by
  have hv := h.valid_iff (listKey false L (c i) (key i))
  simp only [listGetDefault]
  cases hp : place cap l.length (key i) with
  | none =>
    rw [if_neg]
    · rfl
    · intro hh
      obtain ⟨j, hj, hu⟩ := hv.mp hh
      have hl : l ≠ [] := by intro hl; subst hl; simp at hj
      rcases key_emod hcap hL h hl (key i) with ⟨j', hj', _⟩ | ⟨_, hn⟩
      · rw [hp] at hj'; simp at hj'
      · exact hn ⟨j, hj, hu⟩
  | some j =>
    have hl : l ≠ [] := by intro hl; subst hl; rw [List.length_nil, place_nil] at hp; simp at hp
    rcases key_emod hcap hL h hl (key i) with ⟨j', hj', hlt, hu⟩ | ⟨hn, _⟩
    · have : j' = j := by rw [hp] at hj'; exact (Option.some.inj hj').symm
      subst this
      rw [if_pos (hv.mpr ⟨j', hlt, hu⟩)]
      have hr := key_range hL (c i) (key i)
      rw [emod_small hr.1 hr.2, hu, h.read hL hlt]
      simp [hlt]
    · rw [hp] at hn; simp at hn

theorem get_place (hcap : (cap : Int) = L) (hL : 2 ≤ L) (h : Rep L r l) (k : Int) (j : Nat) (hp : place cap l.length k = some j) :
    l[j]? = some (readAt L r (listKey false L r k)) := by
  have hl : l ≠ [] := by intro hl; subst hl; rw [List.length_nil, place_nil] at hp; simp at hp
  rcases key_emod hcap hL h hl k with ⟨j', hj', hlt, hu⟩ | ⟨hn, _⟩
  · have : j' = j := by rw [hp] at hj'; exact (Option.some.inj hj').symm
    subst this
    rw [hu, h.read hL hlt]
    simp [hlt]
  · rw [hp] at hn; simp at hn

theorem place_last {n : Nat} (hc : 1 ≤ cap) (h : 0 < n) : place cap n (-1) = some (n - 1) := by
  unfold place
  rw [if_neg (by omega)]
  have : ((-(-1 : Int) - 1) % (cap : Int)).toNat = 0 := by simp
  simp only [this, h, if_true]
  simp

theorem place_first {n : Nat} (h : 0 < n) : place cap n 0 = some 0 := by
  simp [place, h]

theorem badAddress_none (hL : 2 ≤ L) (c : Batch B α) (key : Fin B → Int) : listBadAddress false L c key = false := by
  unfold listBadAddress
  rw [anyB_false]
  intro i
  have hr := key_range hL (c i) (key i)
  rw [address_pos hr.1 hr.2]; rfl

theorem listModify_false (hL : 2 ≤ L) (c : Batch B α) (key : Fin B → Int) (f : Fin B → α → α) (w : Fin B → Bool) :
    listModify false L c key f w = ⟨fun i => writeAt L (c i) (listKey false L (c i) (key i))
      (if w i then f i (readAt L (c i) (listKey false L (c i) (key i))) else readAt L (c i) (listKey false L (c i) (key i))), .ok ()⟩ := by
  unfold listModify
  rw [badAddress_none hL]
  rfl

theorem full_stays (h : Rep L r l) (hL : 2 ≤ L) (hf : isFull L r = true) (w : Bool) : moveEndForward L r w = r ∧ moveBeginBackward L r w = r := by
  have hne : isEmpty r = false := by
    rw [Bool.eq_false_iff]; intro he
    have := h.isEmpty_iff.mp he; subst this
    have := (h.isFull_iff hL).mp hf
    simp at this; omega
  simp [moveEndForward, moveBeginBackward, hne, hf]

theorem empty_stays (h : Rep L r []) (w : Bool) : moveEndBackward L r w = r ∧ moveBeginForward L r w = r := by
  have he := h.empty rfl
  have h1 : isEmpty r = true := h.isEmpty_iff.mpr rfl
  have h2 : hasOne r = false := by simp [hasOne, he]
  simp [moveEndBackward, moveBeginForward, h1, h2]

/-- Moving the end and writing there. -/
theorem append_item (hcap : (cap : Int) = L) (hL : 2 ≤ L) (h : Rep L r l) (x : α) :
    Rep L (writeAt L (moveEndForward L r true) (listKey false L (moveEndForward L r true) (-1)) x) (next cap l (.append x)) := by
  by_cases hlt : l.length < cap
  · have h' := h.moveEndForward_true hL (by omega)
    have := modify_place hcap hL h' (-1) (fun _ => x)
    simp only [next, List.length_append, List.length_singleton, place_last (show 1 ≤ cap by omega) (Nat.succ_pos _)] at this
    rw [show l.length.succ - 1 = l.length from rfl, modify_append_last] at this
    simpa [next, hlt] using this
  · have hle := h.length_le hL
    have hf := (h.isFull_iff hL).mpr (by omega)
    rw [(full_stays h hL hf true).1]
    have := modify_place hcap hL h (-1) (fun _ => x)
    have hpos : 0 < l.length := by omega
    simp only [next, place_last (show 1 ≤ cap by omega) hpos] at this
    simp only [next, if_neg hlt]
    have hl : l ≠ [] := List.length_pos_iff.mp hpos
    have he : l.modify (l.length - 1) (fun _ => x) = l.dropLast ++ [x] := by
      conv_lhs => rw [← List.dropLast_append_getLast hl]
      rw [List.length_append, List.length_singleton, Nat.add_sub_cancel, modify_append_last]
    rwa [he] at this

theorem appendLeft_item (hcap : (cap : Int) = L) (hL : 2 ≤ L) (h : Rep L r l) (x : α) :
    Rep L (writeAt L (moveBeginBackward L r true) (listKey false L (moveBeginBackward L r true) 0) x) (next cap l (.appendLeft x)) := by
  by_cases hlt : l.length < cap
  · have h' := h.moveBeginBackward_true hL (by omega)
    have := modify_place hcap hL h' 0 (fun _ => x)
    simp only [next, List.length_cons, place_first (Nat.succ_pos _), List.modify_zero_cons] at this
    simpa [next, hlt] using this
  · have hle := h.length_le hL
    have hf := (h.isFull_iff hL).mpr (by omega)
    rw [(full_stays h hL hf true).2]
    have := modify_place hcap hL h 0 (fun _ => x)
    have hpos : 0 < l.length := by omega
    simp only [next, place_first hpos] at this
    simp only [next, if_neg hlt]
    have he : l.modify 0 (fun _ => x) = x :: l.tail := by
      cases l with
      | nil => simp at hpos
      | cons a t => simp
    rwa [he] at this

/-- One call on the list with `verify=False`. -/
theorem lenient_step (hcap : (cap : Int) = L) (hL : 2 ≤ L) {c : Batch B α} {l : Fin B → List α} (h : ∀ i, Rep L (c i) (l i)) (fb : α) (op : CList.Call B α) :
    ∃ f, (listExec false L fb c op).result = .ok f ∧ ∀ i,
      (op.selects i = true → Returns cap fb (l i) (op.at i) (f i) ∧ Rep L ((listExec false L fb c op).state i) (next cap (l i) (op.at i)))
      ∧ (op.selects i = false → Rep L ((listExec false L fb c op).state i) (l i)) := by
  cases op with
  | append x w =>
    simp only [listExec, listAppend, Bool.false_and, Bool.false_eq_true, if_false, listModify_false hL]
    refine ⟨fun _ => .unit, rfl, fun i => ⟨fun hw => ⟨rfl, ?_⟩, fun hw => ?_⟩⟩
    · simp only [CList.Call.selects] at hw
      simp only [hw, if_true, CList.Call.at]
      exact append_item hcap hL (h i) (x i)
    · simp only [CList.Call.selects] at hw
      simp only [hw, Bool.false_eq_true, if_false, moveEndForward_false]
      exact (h i).rewrite _
  | appendLeft x w =>
    simp only [listExec, listAppendLeft, Bool.false_and, Bool.false_eq_true, if_false, listModify_false hL]
    refine ⟨fun _ => .unit, rfl, fun i => ⟨fun hw => ⟨rfl, ?_⟩, fun hw => ?_⟩⟩
    · simp only [CList.Call.selects] at hw
      simp only [hw, if_true, CList.Call.at]
      exact appendLeft_item hcap hL (h i) (x i)
    · simp only [CList.Call.selects] at hw
      simp only [hw, Bool.false_eq_true, if_false, moveBeginBackward_false]
      exact (h i).rewrite _
  | pop w =>
    simp only [listExec, listPop, Bool.false_and, Bool.false_eq_true, if_false]
    refine ⟨_, rfl, fun i => ⟨fun hw => ⟨?_, ?_⟩, fun hw => ?_⟩⟩
    · simp only [CList.Call.at, Returns, getDefault_place hcap hL (h i)]
      cases hl : l i with
      | nil => simp [place_nil]
      | cons a t =>
        rw [← hl, place_last (by omega) (by simp [hl])]
        simp [List.getLast?_eq_getElem?]
    · simp only [CList.Call.selects] at hw
      rw [hw]
      by_cases hl : l i = []
      · have h' := h i
        simp only [hl] at h' ⊢
        rw [(empty_stays h' true).1]; exact h'
      · exact (h i).moveEndBackward_true hL hl
    · simp only [CList.Call.selects] at hw
      rw [hw, moveEndBackward_false]; exact h i
  | popLeft w =>
    simp only [listExec, listPopLeft, Bool.false_and, Bool.false_eq_true, if_false]
    refine ⟨_, rfl, fun i => ⟨fun hw => ⟨?_, ?_⟩, fun hw => ?_⟩⟩
    · simp only [CList.Call.at, Returns, getDefault_place hcap hL (h i)]
      cases hl : l i with
      | nil => simp [place_nil]
      | cons a t =>
        rw [← hl, place_first (by simp [hl])]
        simp [List.head?_eq_getElem?]
    · simp only [CList.Call.selects] at hw
      rw [hw]
      by_cases hl : l i = []
      · have h' := h i
        simp only [hl] at h' ⊢
        rw [(empty_stays h' true).2]; exact h'
      · exact (h i).moveBeginForward_true hL hl
    · simp only [CList.Call.selects] at hw
      rw [hw, moveBeginForward_false]; exact h i
  | get k =>
    simp only [listExec, listGet, badAddress_none hL]
    refine ⟨_, rfl, fun i => ⟨fun _ => ⟨⟨_, rfl, fun j hj => get_place hcap hL (h i) _ j hj⟩, h i⟩, fun hw => by simp [CList.Call.selects] at hw⟩⟩
  | getDefault k d =>
    refine ⟨_, rfl, fun i => ⟨fun _ => ⟨?_, h i⟩, fun hw => by simp [CList.Call.selects] at hw⟩⟩
    simp only [CList.Call.at, Returns, getDefault_place hcap hL (h i)]
  | set k x w =>
    simp only [listExec, listModify_false hL]
    refine ⟨fun _ => .unit, rfl, fun i => ⟨fun hw => ⟨rfl, ?_⟩, fun hw => ?_⟩⟩
    · simp only [CList.Call.selects] at hw
      simp only [hw, if_true, CList.Call.at]
      have := modify_place hcap hL (h i) (k i) (fun _ => x i)
      have he : next cap (l i) (.modify (k i) (fun _ => x i)) = next cap (l i) (.set (k i) (x i)) := by
        simp only [next]
        cases hp : place cap (l i).length (k i) with
        | none => rfl
        | some j =>
          by_cases hj : j < (l i).length
          · exact modify_eq_set _ _ _ hj
          · simp only [List.set_eq_of_length_le (Nat.le_of_not_lt hj)]
            exact List.modify_eq_self (Nat.le_of_not_lt hj)
      rwa [he] at this
    · simp only [CList.Call.selects] at hw
      simp only [hw, Bool.false_eq_true, if_false]
      exact (h i).rewrite _
  | modify k f w =>
    simp only [listExec, listModify_false hL]
    refine ⟨fun _ => .unit, rfl, fun i => ⟨fun hw => ⟨rfl, ?_⟩, fun hw => ?_⟩⟩
    · simp only [CList.Call.selects] at hw
      simp only [hw, if_true, CList.Call.at]
      exact modify_place hcap hL (h i) (k i) (f i)
    · simp only [CList.Call.selects] at hw
      simp only [hw, Bool.false_eq_true, if_false]
      exact (h i).rewrite _
  | length =>
    refine ⟨_, rfl, fun i => ⟨fun _ => ⟨?_, h i⟩, fun hw => by simp [CList.Call.selects] at hw⟩⟩
    simp only [CList.Call.at, Returns, (h i).length_spec hL]
  | clear =>
    refine ⟨_, rfl, fun i => ⟨fun _ => ⟨rfl, ?_⟩, fun hw => by simp [CList.Call.selects] at hw⟩⟩
    apply rep_new; simp [listExec, CList.clear]

end
end EvoTorch.Unchecked
