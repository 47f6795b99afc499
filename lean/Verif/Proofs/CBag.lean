import Verif.Model.CBag
import Verif.Proofs.CListHistory
import Mathlib.Data.List.Sort
import Mathlib.Tactic.Linarith
import Mathlib.Tactic.Positivity
/-!
Invariants of the bag.
-/
namespace EvoTorch.CBag
open EvoTorch.CList (Rep)

/-- Well-formed configuration: the documented use of the class, with no overflow of the integer data type. -/
structure Cfg.Ok (c : Cfg) : Prop where
  len : 2 ≤ c.maxLength
  low : c.low ≤ 1
  range : c.low < c.high
  fits : c.maxLength * c.bignum + c.shift < 2 ^ (c.bits - 1)
  fitsLow : -(2 ^ (c.bits - 1) : Int) ≤ c.low - 1
  bits : 1 ≤ c.bits

theorem Cfg.wrap_id (c : Cfg) (hb : 1 ≤ c.bits) {x : Int} (h1 : -(2 ^ (c.bits - 1) : Int) ≤ x) (h2 : x < 2 ^ (c.bits - 1)) :
    c.wrap x = x := by
  have : (2 : Int) ^ c.bits = 2 ^ (c.bits - 1) + 2 ^ (c.bits - 1) := by
    obtain ⟨n, hn⟩ : ∃ n, c.bits = n + 1 := ⟨c.bits - 1, by omega⟩
    rw [hn, Nat.add_sub_cancel, pow_succ]; omega
  unfold Cfg.wrap
  rw [Int.emod_eq_of_lt (by omega) (by omega)]; omega

/-- Invariant of a row in the filling phase. -/
structure Filling (c : Cfg) (r : CList.Ring Int) (l : List Int) : Prop where
  rep : Rep c.maxLength r l
  beg : l ≠ [] → r.beg = 0
  vals : ∀ x ∈ l, c.low ≤ x ∧ x < c.high
  rest : ∀ j, l.length ≤ j → j < c.maxLength → r.data j = c.empty

variable {c : Cfg}

theorem Filling.fin {r : CList.Ring Int} {l : List Int} (h : Filling c r l) (hl : l ≠ []) :
    r.fin = l.length - 1 := by
  have h1 := h.rep.len hl; have h2 := h.beg hl; have h3 := h.rep.rng hl
  unfold CList.cnt at h1
  split at h1 <;> omega

theorem Filling.data {r : CList.Ring Int} {l : List Int} (h : Filling c r l) (hc : c.Ok) (j : Nat) (hj : j < l.length) :
    r.data j = l[j] := by
  have hl : l ≠ [] := by intro h; subst h; simp at hj
  have h1 := h.rep.elt j hj; have h2 := h.beg hl
  have h3 := h.rep.length_le (by have := hc.len; omega)
  have : CList.pos c.maxLength r.beg j = j := by
    unfold CList.pos; rw [h2]; split <;> omega
  rw [this, List.getElem?_eq_getElem hj] at h1; exact (Option.some.inj h1).symm

/-- Effect of an accepted push on a selected row. -/
theorem Filling.push (hc : c.Ok) {r : CList.Ring Int} {l : List Int} (h : Filling c r l) (hlt : l.length < c.maxLength) (v : Int)
    (hv : c.low ≤ v ∧ v < c.high)
    (hrep : Rep c.maxLength (CList.writeAt c.maxLength (CList.moveEndForward c.maxLength r true)
      (CList.underlyingKey c.maxLength (CList.moveEndForward c.maxLength r true) (-1)) v) (l ++ [v])) :
    Filling c (CList.writeAt c.maxLength (CList.moveEndForward c.maxLength r true)
      (CList.underlyingKey c.maxLength (CList.moveEndForward c.maxLength r true) (-1)) v) (l ++ [v]) := by
  have hlen := hc.len
  have key : (CList.moveEndForward (c.maxLength : Int) r true).beg = 0 ∧
      (CList.moveEndForward (c.maxLength : Int) r true).fin = l.length ∧
      (CList.moveEndForward (c.maxLength : Int) r true).data = r.data := by
    have hL : (2 : Int) ≤ c.maxLength := by omega
    have hF : CList.isFull (c.maxLength : Int) r = false := by
      rw [Bool.eq_false_iff]; intro h'; have := (h.rep.isFull_iff hL).mp h'; omega
    by_cases hl : l = []
    · have hE := h.rep.isEmpty_iff.mpr hl
      simp [CList.moveEndForward, hE, hl]
    · have hE : CList.isEmpty r = false := by
        rw [Bool.eq_false_iff]; intro h'; exact hl (h.rep.isEmpty_iff.mp h')
      have h1 := h.fin hl; have h2 := h.beg hl
      simp only [CList.moveEndForward, hE, hF]
      simp only [Bool.not_false, Bool.and_true, if_true, Bool.false_eq_true, if_false]
      refine ⟨h2, ?_, trivial⟩
      rw [h1, CList.emod_small (by omega) (by omega)]; omega
  have hu : CList.underlyingKey (c.maxLength : Int) (CList.moveEndForward (c.maxLength : Int) r true) (-1) = l.length := by
    simp only [CList.underlyingKey, CList.modUnderlyingKey, key.2.1]
    have h1 : ¬ ((-1 : Int) ≥ 0) := by omega
    rw [if_neg h1]
    have h2 : ¬ ((l.length : Int) + -1 + 1 < 0) := by omega
    have h3 : ¬ ((l.length : Int) + -1 + 1 ≥ c.maxLength) := by omega
    simp only [h2, h3, decide_false]
    simp
  refine ⟨hrep, fun _ => key.1, ?_, ?_⟩
  · intro x hx
    rcases List.mem_append.mp hx with hx | hx
    · exact h.vals x hx
    · simp at hx; subst hx; exact hv
  · intro j hj hjm
    simp only [List.length_append, List.length_singleton] at hj
    rw [hu]
    simp only [CList.writeAt, CList.address_pos (L := (c.maxLength : Int)) (u := l.length) (by omega) (by omega), key.2.2]
    simp
    rw [if_neg (by omega)]
    exact h.rest j (by omega) hjm

theorem writeAt_self (L : Int) (r : CList.Ring Int) (u : Int) : CList.writeAt L r u (CList.readAt L r u) = r := by
  cases r
  simp only [CList.writeAt, CList.readAt]
  congr 1; funext j
  split
  · rename_i h; rw [h]
  · rfl

theorem sorted_append_replicate (big : List Int) (e : Int) (n : Nat) (h : ∀ x ∈ big, e < x) :
    (big ++ List.replicate n e).insertionSort (· ≥ ·) =
      big.insertionSort (· ≥ ·) ++ List.replicate n e := by
  have hle : ∀ l : List Int, List.Pairwise (fun a b => a ≥ b) (l.insertionSort (· ≥ ·)) := by
    intro l
    exact List.pairwise_insertionSort _ l
  apply List.Perm.eq_of_pairwise (le := fun a b : Int => a ≥ b)
  · intro a b _ _ h1 h2; omega
  · exact hle _
  · rw [List.pairwise_append]
    refine ⟨hle _, ?_, ?_⟩
    · rw [List.pairwise_replicate]; right; omega
    · intro a ha b hb
      have ha := (List.perm_insertionSort _ big).subset ha
      have := h a ha
      rw [List.mem_replicate] at hb
      omega
  · exact (List.perm_insertionSort _ _).trans ((List.perm_insertionSort _ big).symm.append_right _)

/-- The shuffle orders the contents of a row by descending noise. -/
theorem Filling.shuffle_order (hc : c.Ok) {r : CList.Ring Int} {l : List Int} (h : Filling c r l) (noise : Nat → Int)
    (hn : ∀ j, j < c.maxLength → 0 ≤ noise j ∧ noise j < c.maxLength) :
    ∃ o : List Nat, o.Perm (List.range l.length) ∧ (o.Pairwise fun i j => noise j ≤ noise i) ∧
      Rep c.maxLength (shuffleRow c noise r) (o.map fun j => l.getD j 0) := by
  have hL := hc.len
  have hlenle : l.length ≤ c.maxLength := by
    have := h.rep.length_le (by omega); omega
  have hM : c.bignum = c.high - c.low + 1 := rfl
  have hMpos : 2 ≤ c.bignum := by have := hc.range; omega
  have hshift : c.low + c.shift = 1 ∧ 0 ≤ c.shift := by
    have := hc.low
    unfold Cfg.shift; split <;> omega
  have hfit := hc.fits; have hfl := hc.fitsLow
  have hML : c.bignum ≤ c.maxLength * c.bignum := by nlinarith
  -- the value put at position j
  let e : Nat → Int → Int := fun j x => x + (c.shift + noise j * c.bignum)
  have hnb : ∀ j, j < c.maxLength → 0 ≤ noise j * c.bignum ∧ noise j * c.bignum + c.bignum ≤ c.maxLength * c.bignum := by
    intro j hj
    have := hn j hj
    constructor
    · exact Int.mul_nonneg this.1 (by omega)
    · have : (noise j + 1) * c.bignum ≤ c.maxLength * c.bignum :=
        Int.mul_le_mul_of_nonneg_right (by omega) (by omega)
      rw [Int.add_mul, Int.one_mul] at this; exact this
  have hadded : (List.range c.maxLength).map (fun j =>
      c.wrap (r.data j + if r.data j ≠ c.empty then c.wrap (c.shift + c.wrap (noise j * c.bignum)) else 0))
      = (List.zipWith e (List.range l.length) l) ++ List.replicate (c.maxLength - l.length) c.empty := by
    apply List.ext_getElem
    · simp; omega
    · intro j h1 h2
      simp only [List.length_map, List.length_range] at h1
      simp only [List.getElem_map, List.getElem_range]
      by_cases hj : j < l.length
      · rw [List.getElem_append_left (by simpa using hj), h.data hc j hj]
        have hv := h.vals l[j] (List.getElem_mem hj)
        have hne : l[j] ≠ c.empty := by unfold Cfg.empty; omega
        have hb := hnb j h1
        rw [if_pos hne, c.wrap_id hc.bits (x := noise j * c.bignum) (by omega) (by omega),
          c.wrap_id hc.bits (x := c.shift + noise j * c.bignum) (by omega) (by omega),
          c.wrap_id hc.bits (by omega) (by omega)]
        simp [e]
      · rw [List.getElem_append_right (by simpa using hj), h.rest j (by omega) h1]
        simp only [ne_eq, not_true_eq_false, if_false, List.getElem_replicate, Int.add_zero]
        unfold Cfg.empty
        have : 0 < (2 : Int) ^ (c.bits - 1) := by positivity
        have := hc.low
        rw [c.wrap_id hc.bits (by omega) (by omega)]
  have hdec : ∀ j x, j < c.maxLength → c.low ≤ x ∧ x < c.high →
      c.wrap (c.wrap (e j x % c.bignum) - c.shift) = x := by
    intro j x hj hx
    have hb := hnb j hj
    have : e j x % c.bignum = x + c.shift := by
      have : e j x = (x + c.shift) + noise j * c.bignum := by simp only [e]; omega
      rw [this, Int.add_mul_emod_self_right, Int.emod_eq_of_lt (by omega) (by omega)]
    rw [this, c.wrap_id hc.bits (x := x + c.shift) (by omega) (by omega), Int.add_sub_cancel, c.wrap_id hc.bits (by omega) (by omega)]
  have hmem : ∀ y ∈ List.zipWith e (List.range l.length) l,
      ∃ j x, j < c.maxLength ∧ (c.low ≤ x ∧ x < c.high) ∧ y = e j x := by
    intro y hy
    obtain ⟨k, hk, rfl⟩ := List.getElem_of_mem hy
    simp only [List.length_zipWith, List.length_range] at hk
    refine ⟨k, l[k], by omega, h.vals _ (List.getElem_mem _), ?_⟩
    simp
  let big := List.zipWith e (List.range l.length) l
  let dec : Int → Int := fun x => c.wrap (c.wrap (x % c.bignum) - c.shift)
  have hbigmap : big.map dec = l := by
    apply List.ext_getElem
    · simp [big]
    · intro j h1 h2
      simp only [big, dec, List.getElem_map, List.getElem_zipWith, List.getElem_range]
      exact hdec j _ (by omega) (h.vals _ (List.getElem_mem _))
  have hgt : ∀ x ∈ big, c.empty < x := by
    intro y hy
    obtain ⟨j, x, hj, hx, rfl⟩ := hmem y hy
    have := hnb j hj
    simp only [e, Cfg.empty]; omega
  have hlenbig : big.length = l.length := by simp [big]
  have hsort := sorted_append_replicate big c.empty (c.maxLength - l.length) hgt
  let f : Nat → Int := fun j => e j (l.getD j 0)
  have hbigf : big = (List.range l.length).map f := by
    apply List.ext_getElem
    · simp [big]
    · intro j h1 h2
      have hj : j < l.length := by simpa using h2
      simp only [big, f, List.getElem_map, List.getElem_zipWith, List.getElem_range, List.getD_eq_getElem?_getD, List.getElem?_eq_getElem hj, Option.getD_some]
  let o := (List.range l.length).insertionSort fun i j => f i ≥ f j
  have hop : o.Perm (List.range l.length) := List.perm_insertionSort _ _
  have hos : o.Pairwise fun i j => f i ≥ f j := by
    haveI : Std.Total fun i j : Nat => f i ≥ f j := ⟨fun a b => by omega⟩
    haveI : IsTrans Nat fun i j => f i ≥ f j := ⟨fun a b c h1 h2 => by omega⟩
    exact List.pairwise_insertionSort _ _
  have hof : o.map f = big.insertionSort (· ≥ ·) := by
    apply List.Perm.eq_of_pairwise (le := fun a b : Int => a ≥ b)
    · intro a b _ _ h1 h2; omega
    · rw [List.pairwise_map]; exact hos
    · exact List.pairwise_insertionSort _ _
    · rw [hbigf]; exact (hop.map f).trans (List.perm_insertionSort _ _).symm
  have homem : ∀ j ∈ o, j < l.length := fun j hj => List.mem_range.mp (hop.mem_iff.mp hj)
  have hol : (o.map fun j => l.getD j 0) = (big.insertionSort (· ≥ ·)).map dec := by
    rw [← hof, List.map_map]
    apply List.map_congr_left
    intro j hj
    have hj' := homem j hj
    have hg : l.getD j 0 = l[j] := by rw [List.getD_eq_getElem?_getD, List.getElem?_eq_getElem hj', Option.getD_some]
    simp only [Function.comp, f, dec, hg]
    exact (hdec j _ (by omega) (h.vals _ (List.getElem_mem _))).symm
  refine ⟨o, hop, ?_, ?_⟩
  · refine List.Pairwise.imp_of_mem (fun {i j} hi hj hij => ?_) hos
    have hi' := homem i hi; have hj' := homem j hj
    have gi : l.getD i 0 = l[i] := by rw [List.getD_eq_getElem?_getD, List.getElem?_eq_getElem hi', Option.getD_some]
    have gj : l.getD j 0 = l[j] := by rw [List.getD_eq_getElem?_getD, List.getElem?_eq_getElem hj', Option.getD_some]
    have vi := h.vals _ (List.getElem_mem hi'); have vj := h.vals _ (List.getElem_mem hj')
    simp only [f, e, gi, gj] at hij
    by_contra hlt
    have : (noise i + 1) * c.bignum ≤ noise j * c.bignum := Int.mul_le_mul_of_nonneg_right (by omega) (by omega)
    rw [Int.add_mul, Int.one_mul] at this
    omega
  · rw [hol]
    have hlen' : ((big.insertionSort (· ≥ ·)).map dec).length = l.length := by
      simp [hlenbig]
    have hne : (big.insertionSort (· ≥ ·)).map dec ≠ [] ↔ l ≠ [] := by
      rw [← List.length_pos_iff, ← List.length_pos_iff, hlen']
    refine ⟨?_, ?_, ?_, ?_⟩
    · intro h0
      exact h.rep.empty (by by_contra h1; exact (hne.mpr h1) h0)
    · intro h0; exact h.rep.rng (hne.mp h0)
    · intro h0; rw [hlen']; exact h.rep.len (hne.mp h0)
    · intro j hj
      rw [hlen'] at hj
      have hl : l ≠ [] := by intro h; subst h; simp at hj
      have hpos : CList.pos c.maxLength r.beg j = j := by
        have := h.beg hl
        unfold CList.pos; rw [this]; split <;> omega
      show _ = some ((shuffleRow c noise r).data (CList.pos c.maxLength r.beg j))
      rw [hpos]
      simp only [shuffleRow, hadded]
      have hsort' := hsort
      simp only [big] at hsort'
      rw [hsort', List.map_append, List.getD_eq_getElem?_getD, List.getElem?_append_left (by simpa [big] using hj),
        List.getElem?_eq_getElem (by simpa [big] using hj)]
      rfl

/-- The shuffle permutes the contents of a row. -/
theorem Filling.shuffle (hc : c.Ok) {r : CList.Ring Int} {l : List Int} (h : Filling c r l) (noise : Nat → Int)
    (hn : ∀ j, j < c.maxLength → 0 ≤ noise j ∧ noise j < c.maxLength) :
    ∃ l', l'.Perm l ∧ Rep c.maxLength (shuffleRow c noise r) l' := by
  obtain ⟨o, h1, -, h3⟩ := h.shuffle_order hc noise hn
  refine ⟨_, ?_, h3⟩
  have h4 : ((List.range l.length).map fun j => l.getD j 0) = l := by
    apply List.ext_getElem
    · simp
    · intro j h5 h6
      simp [List.getD_eq_getElem?_getD, h6]
  exact (h1.map _).trans (List.Perm.of_eq h4)

end EvoTorch.CBag
