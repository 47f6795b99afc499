import Verif.Model.Modify
/-! Lemmas about clipping. -/
namespace EvoTorch.Modify
variable {K : Type} [Field K] [LinearOrder K] [IsStrictOrderedRing K]
open Flt

theorem fin_le {a b : K} : le (.fin a) (.fin b) = true ↔ a ≤ b := by simp [le]

theorem abs_fin (x : K) : Flt.abs (.fin x) = .fin |x| := by
  simp only [Flt.abs]
  split
  · rw [abs_of_neg ‹_›]
  · rw [abs_of_nonneg (not_lt.mp ‹_›)]

theorem allowed_fin (o c : K) : Flt.mul (Flt.abs (.fin o)) (.fin c) = .fin (|o| * c) := by
  rw [abs_fin]; rfl

theorem clip_le (t : Flt K) {L U : Flt K} (ht : t.isNan = false) (hL : L.isNan = false) (hU : U.isNan = false) :
    le (min2 (max2 t L) U) U = true :=
  ((le_min2_iff (c := min2 (max2 t L) U) (max2_isNan ht hL) hU).mp
    (le_refl' (min2_isNan (max2_isNan ht hL) hU))).2

theorem clip_ge (t : Flt K) {L U : Flt K} (ht : t.isNan = false) (hLU : le L U = true) :
    le L (min2 (max2 t L) U) = true := by
  have hL := isNan_of_le_left hLU
  have hU := isNan_of_le_right hLU
  rw [le_min2_iff (max2_isNan ht hL) hU]
  refine ⟨?_, hLU⟩
  exact ((max2_le_iff ht hL).mp (le_refl' (max2_isNan ht hL))).2

/-- Clipping a finite number to a range that contains a finite number gives the closest number of the range. -/
theorem clip_closest (t : K) {L U : Flt K} (y : K) (h1 : le L (.fin y) = true) (h2 : le (.fin y) U = true) :
    ∃ x, min2 (max2 (.fin t) L) U = .fin x ∧ le L (.fin x) = true ∧ le (.fin x) U = true ∧
      ∀ z, le L (.fin z) = true → le (.fin z) U = true → |x - t| ≤ |z - t| := by
  have hL := isNan_of_le_left h1
  have hU := isNan_of_le_right h2
  have ht : (Flt.fin t).isNan = false := rfl
  rcases max2_cases ht hL with ⟨e, h⟩ | ⟨e, h⟩
  · rw [e]
    rcases min2_cases ht hU with ⟨e', h'⟩ | ⟨e', h'⟩
    · exact ⟨t, e', h, h', fun z _ _ => by simp⟩
    · rw [e']
      cases U with
      | fin u =>
        refine ⟨u, rfl, le_trans' h1 h2, le_refl' rfl, fun z _ hz => ?_⟩
        rw [fin_le] at h' hz
        rw [abs_of_nonpos (by linarith), abs_of_nonpos (by linarith)]; linarith
      | pinf => simp [le] at h'
      | ninf => simp [le] at h2
      | nan => simp [isNan] at hU
  · rw [e]
    cases L with
    | fin l =>
      rcases min2_cases (a := Flt.fin l) rfl hU with ⟨e', h'⟩ | ⟨e', h'⟩
      · refine ⟨l, e', le_refl' rfl, h', fun z hz _ => ?_⟩
        rw [fin_le] at h hz
        rw [abs_of_nonneg (by linarith), abs_of_nonneg (by linarith)]; linarith
      · have hlu : U = .fin l := le_antisymm' h' (le_trans' h1 h2)
        subst hlu
        refine ⟨l, e', le_refl' rfl, le_refl' rfl, fun z hz _ => ?_⟩
        rw [fin_le] at h hz
        rw [abs_of_nonneg (by linarith), abs_of_nonneg (by linarith)]; linarith
    | pinf => simp [le] at h1
    | ninf => simp [le] at h
    | nan => simp [isNan] at hL

end EvoTorch.Modify
