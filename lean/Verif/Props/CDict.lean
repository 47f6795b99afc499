import Verif.Model.CDict
import Verif.Proofs.CMemory
/-!
C06: `CDict` behaves as a dictionary per batch item.
-/
namespace EvoTorch.CDict
open EvoTorch.Spec.Memory (Key InRange update)
open EvoTorch.CMemory (Cfg Mem)

variable {B d : Nat} {α : Type}

/-! Specification: per batch item, a partial map from keys to values. -/

/-- Is item `i` selected by the (optional) mask? -/
abbrev selected (w : Option (Fin B → Bool)) (i : Fin B) : Bool := (w.getD fun _ => true) i

/-- The keys of a call that must be valid. -/
def Call.Acceptable (cfg : Cfg d) : Call B d α → Prop
  | .set key _ w | .modify key _ w => ∀ i, selected w i = true → InRange cfg.numKeys cfg.offset (key i)
  | .clear => True

/-- All keys of the call, also those of unselected items, are valid or selected. -/
def Call.UnselectedInRange (cfg : Cfg d) : Call B d α → Prop
  | .set key _ w | .modify key _ w => ∀ i, selected w i = false → InRange cfg.numKeys cfg.offset (key i)
  | .clear => True

/-- One step of the dictionaries: `set_` inserts, arithmetic acts on present keys only, `clear` removes everything. -/
def dictStep (m : Fin B → Key d → Option α) : Call B d α → Fin B → Key d → Option α
  | .set key v w => fun i k => if selected w i = true ∧ key i = k then some (v i) else m i k
  | .modify key g w => fun i k => if selected w i = true ∧ key i = k then (m i k).map (g i) else m i k
  | .clear => fun _ _ => none

open Classical in
/-- The dictionaries after a history: refused calls have no effect. -/
noncomputable def dictRun (cfg : Cfg d) : (Fin B → Key d → Option α) → List (Call B d α) → Fin B → Key d → Option α
  | m, [] => m
  | m, op :: ops => dictRun cfg (if op.Acceptable cfg then dictStep m op else m) ops

/-- Abstraction relation. -/
structure Rep (cfg : Cfg d) (c : Dict B d α) (m : Fin B → Key d → Option α) : Prop where
  exist : ∀ i k, InRange cfg.numKeys cfg.offset k → CMemory.toMap cfg c.exist i k = (m i k).isSome
  data : ∀ i k v, InRange cfg.numKeys cfg.offset k → m i k = some v → CMemory.toMap cfg c.data i k = v

theorem rep_step (cfg : Cfg d) (hpos : ∀ j, 0 < cfg.numKeys j) (c : Dict B d α) (m : Fin B → Key d → Option α)
    (h : Rep cfg c m) (op : Call B d α) (hun : op.UnselectedInRange cfg) :
    (op.Acceptable cfg → (exec cfg c op).result = .ok () ∧ Rep cfg (exec cfg c op).state (dictStep m op)) ∧
    (¬ op.Acceptable cfg → exec cfg c op = ⟨c, .error .keyError⟩) := by
  cases op with
  | clear =>
    refine ⟨fun _ => ⟨rfl, ⟨fun i k _ => ?_, fun i k v _ hv => ?_⟩⟩, fun hn => absurd trivial hn⟩
    · simp [exec, CMemory.toMap, dictStep]
    · simp [dictStep] at hv
  | set key v w =>
    constructor
    · intro ha
      have hk : ∀ i, InRange cfg.numKeys cfg.offset (key i) := by
        intro i
        cases hw : selected w i with
        | true => exact ha i hw
        | false => exact hun i hw
      obtain ⟨h1', h2'⟩ := CMemory.set_ok cfg hpos c.data key v w hk
      obtain ⟨h3', h4'⟩ := CMemory.set_ok cfg hpos c.exist key (fun _ => true) w hk
      simp only [exec, h1', h3', true_and]
      refine ⟨fun i k hkr => ?_, fun i k x hkr hx => ?_⟩
      · rw [h4' i k hkr]
        simp only [update, dictStep, selected, h.exist i k hkr]
        split <;> simp
      · rw [h2' i k hkr]
        simp only [update, dictStep, selected] at hx ⊢
        split at hx
        · rename_i hc; simp only [hc, and_self, if_true]; simpa using hx
        · rename_i hc; rw [if_neg hc]; exact h.data i k x hkr hx
    · intro hn
      have : CMemory.set cfg c.data key v w = ⟨c.data, .error .keyError⟩ := by
        apply CMemory.modify_err cfg hpos
        simpa [Call.Acceptable, selected] using hn
      simp [exec, this]
  | modify key g w =>
    constructor
    · intro ha
      have hk : ∀ i, InRange cfg.numKeys cfg.offset (key i) := by
        intro i
        cases hw : selected w i with
        | true => exact ha i hw
        | false => exact hun i hw
      obtain ⟨h1, h2⟩ := CMemory.modify_ok cfg hpos c.data key w
        (fun i old => CMemory.doWhere ((w.getD fun _ => true) i) (g i old) old) g hk (by intro i x; rfl)
      refine ⟨h1, ⟨fun i k hkr => ?_, fun i k x hkr hx => ?_⟩⟩
      · refine (h.exist i k hkr).trans ?_
        simp only [dictStep]
        split <;> simp
      · refine (h2 i k hkr).trans ?_
        simp only [update, dictStep, selected] at hx ⊢
        by_cases hc : (w.getD fun _ => true) i = true ∧ key i = k
        · rw [if_pos hc] at hx
          simp only [hc, and_self, if_true]
          cases hm : m i k with
          | none => simp [hm] at hx
          | some y => rw [h.data i k y hkr hm]; simpa [hm] using hx
        · rw [if_neg hc] at hx ⊢; exact h.data i k x hkr hx
    · intro hn
      have : CMemory.modify cfg c.data key w
          (fun i old => CMemory.doWhere ((w.getD fun _ => true) i) (g i old) old) = ⟨c.data, .error .keyError⟩ := by
        apply CMemory.modify_err cfg hpos
        simpa [Call.Acceptable, selected] using hn
      simp [exec, this]

/-- **C06.** After `clear()` and then any history of `set_`, in-place arithmetic and `clear()` calls, from arbitrary uninitialised
memory: `contains` tells exactly whether the item's dictionary holds the key, `get` with a default returns the stored value
or the default, and `get` returns the stored value of a present key; invalid keys raise `KeyError`. -/
theorem C06_cdict_is_dictionary (cfg : Cfg d) (hpos : ∀ j, 0 < cfg.numKeys j) (c : Dict B d α) (ops : List (Call B d α))
    (hun : ∀ op ∈ ops, op.UnselectedInRange cfg) (key : Fin B → Key d) (dflt : Fin B → α) :
    let s := run cfg (exec cfg c .clear).state ops
    let m := dictRun cfg (fun _ _ => none) ops
    ((∀ i, InRange cfg.numKeys cfg.offset (key i)) →
      contains cfg s key = .ok (fun i => (m i (key i)).isSome) ∧
      getDefault cfg s key dflt = .ok (fun i => (m i (key i)).getD (dflt i)) ∧
      ∃ f, get cfg s key = .ok f ∧ ∀ i v, m i (key i) = some v → f i = v) ∧
    ((∃ i, ¬ InRange cfg.numKeys cfg.offset (key i)) →
      contains cfg s key = .error .keyError ∧ getDefault cfg s key dflt = .error .keyError ∧
      get cfg s key = .error .keyError) := by
  have key' : ∀ (ops : List (Call B d α)) (c : Dict B d α) (m : Fin B → Key d → Option α),
      (∀ op ∈ ops, op.UnselectedInRange cfg) → Rep cfg c m → Rep cfg (run cfg c ops) (dictRun cfg m ops) := by
    intro ops
    induction ops with
    | nil => intro c m _ h; exact h
    | cons op ops ih =>
      intro c m hun h
      have hs := rep_step cfg hpos c m h op (hun op (by simp))
      have hun' : ∀ op ∈ ops, op.UnselectedInRange cfg := fun o ho => hun o (List.mem_cons_of_mem _ ho)
      simp only [run, dictRun]
      by_cases ha : op.Acceptable cfg
      · rw [if_pos ha]; exact ih _ _ hun' (hs.1 ha).2
      · rw [if_neg ha, hs.2 ha]; exact ih _ _ hun' h
  intro s m
  have hr : Rep cfg s m := key' ops _ _ hun ⟨fun i k _ => rfl, fun i k v _ hv => by simp at hv⟩
  constructor
  · intro hk
    have h1 : contains cfg s key = .ok (fun i => (m i (key i)).isSome) := by
      rw [contains, CMemory.get_ok cfg hpos _ _ hk]
      congr 1; funext i; exact hr.exist i _ (hk i)
    refine ⟨h1, ?_, _, CMemory.get_ok cfg hpos _ _ hk, fun i v hv => hr.data i _ v (hk i) hv⟩
    have h1' : CMemory.get cfg s.exist key = _ := h1
    simp only [getDefault, h1', CMemory.get_ok cfg hpos _ _ hk, bind, Except.bind, pure, Except.pure]
    congr 1; funext i
    cases hm : m i (key i) with
    | none => simp [CMemory.doWhere]
    | some v => simp [CMemory.doWhere, hr.data i _ v (hk i) hm]
  · intro hk
    have h1 := CMemory.get_err cfg hpos s.exist key hk
    refine ⟨h1, ?_, CMemory.get_err cfg hpos s.data key hk⟩
    simp [getDefault, h1, bind, Except.bind]

/-- Concrete history on two items: a masked insertion, arithmetic on a present and a missing key, a refused insertion. -/
example : let cfg : Cfg 1 := ⟨fun _ => 3, fun _ => 0⟩
    let ops : List (Call 2 1 Nat) := [.set (fun _ _ => 1) (fun i => 5 + i.val) (some fun i => i = 0),
      .modify (fun _ _ => 1) (fun _ x => x + 1) none, .set (fun _ _ => 3) (fun _ => 9) none]
    let s := run cfg (exec cfg ⟨fun _ _ => 77, fun _ _ => true⟩ .clear).state ops
    (∀ op ∈ ops, op.UnselectedInRange cfg) ∧
    getDefault cfg s (fun _ _ => 1) (fun _ => 100) = .ok (fun i => if i = 0 then 6 else 100) := by
  refine ⟨?_, congrArg Except.ok ?_⟩
  · intro op hop
    simp only [List.mem_cons, List.not_mem_nil, or_false] at hop
    rcases hop with rfl | rfl | rfl
    · intro i _ j; decide +revert
    · intro i hi; simp [selected] at hi
    · intro i hi; simp [selected] at hi
  · funext i; revert i; decide

/-- **Without `clear()` the claim fails**: a freshly created dictionary reports whatever the uninitialised `_exist` tensor contains
(`structures.py:1197-1205` does not fill it). -/
theorem C06_violated_fresh_dictionary (b : Bool) :
    ∃ c : Dict 1 1 Nat, contains ⟨fun _ => 1, fun _ => 0⟩ c (fun _ _ => 0) = .ok fun _ => b :=
  ⟨⟨fun _ _ => 0, fun _ _ => b⟩, rfl⟩

end EvoTorch.CDict
