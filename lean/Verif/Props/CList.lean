import Verif.Proofs.CListHistory
import Mathlib.Data.List.Forall2
/-!
C01 (bounded deque), C02 (batch items are isolated), C03 (out-of-range indices).
-/
namespace EvoTorch.CList
open EvoTorch.Spec.Deque (Op Out)

variable {α : Type} {B : Nat}

/-- The outcome of a method call on a plain list, as specified: a refused operation raises `IndexError`. -/
def expected {β : Type} : Option β → Except PyErr β
  | some o => .ok o
  | none => .error .indexError

/-- **C01.** Any history of calls on an unbatched `CList` with `max_length = cap ≥ 2`, whatever the uninitialised memory
contained, returns and raises exactly what a bounded deque returns and raises (indices in `[-cap, cap)`). -/
theorem C01_clist_is_bounded_deque (cap : Nat) (hcap : 2 ≤ cap) (junk : Fin 1 → Nat → α) (fallback : α)
    (ops : List (Op α)) (hk : ∀ op ∈ ops, op.KeyWithin cap) :
    (run cap fallback (new 1 junk) (ops.map single)).map (fun r => r.map fun f => f 0)
      = (Spec.Deque.run cap [] ops).map expected := by
  have key : ∀ (ops : List (Op α)) (c : Batch 1 α) (l : Fin 1 → List α), (∀ op ∈ ops, op.KeyWithin cap) →
      (∀ i, Rep (cap : Int) (c i) (l i)) →
      (run cap fallback c (ops.map single)).map (fun r => r.map fun f => f 0)
        = (Spec.Deque.run cap (l 0) ops).map expected := by
    intro ops
    induction ops with
    | nil => intros; rfl
    | cons op ops ih =>
      intro c l hk h
      have hat : ∀ i, (single op).at i = op := by intro i; cases op <;> rfl
      have hsel : ∀ i, (single op).selects i = true := by intro i; cases op <;> rfl
      have hs := sim_step (cap := cap) rfl (by omega) h (single op)
        (fun i => by rw [hat]; exact hk op (by simp)) fallback
      have hk' : ∀ op ∈ ops, op.KeyWithin cap := fun o ho => hk o (List.mem_cons_of_mem _ ho)
      cases hst : Spec.Deque.step cap (l 0) op with
      | none =>
        obtain ⟨h1, h2⟩ := hs.bad ⟨0, hsel 0, by rw [hat]; exact hst⟩
        simp only [List.map_cons, run, Spec.Deque.run, hst, h1, h2]
        rw [ih c l hk' h]
        rfl
      | some p =>
        obtain ⟨f, h1, h2⟩ := hs.good (by
          rintro ⟨i, _, hi⟩
          rw [hat, Subsingleton.elim i 0, hst] at hi
          simp at hi)
        obtain ⟨l', h3, h4⟩ := (h2 0).1 (hsel 0)
        rw [hat, hst] at h3
        obtain rfl : p = (l', f 0) := by simpa using h3
        simp only [List.map_cons, run, Spec.Deque.run, hst, h1]
        rw [ih _ (fun _ => l') hk' (fun i => by rw [Subsingleton.elim i 0]; exact h4)]
        rfl
  exact key ops _ (fun _ => []) hk (fun i => rep_new _ ⟨rfl, rfl⟩)

/-- Concrete history: capacity 2, a refused third append, a wrapping ring, a negative index. -/
example : (run 2 0 (new 1 fun _ _ => 7) ([Op.append 1, .append 2, .append 3, .popLeft, .append 4, .get (-1), .get 1,
    .length].map single)).map (fun r => r.map fun f => f 0)
    = [.ok .unit, .ok .unit, .error .indexError, .ok (.val 1), .ok .unit, .ok (.val 4), .ok (.val 4), .ok (.len 2)] := by
  exact (C01_clist_is_bounded_deque 2 (by decide) _ _ _ (by simp [Op.KeyWithin])).trans rfl

/-! ### C02 -/

/-- Specification of one batched call: every item is a separate plain list. If the operation is refused by the list of any
selected item, nothing happens; otherwise the selected items take their step and the others keep their contents. -/
def specStep (cap : Nat) (l : Fin B → List α) (op : Fin B → Op α) (sel : Fin B → Bool) :
    (Fin B → List α) × Option (Fin B → Option (Out α)) :=
  if (List.finRange B).any fun i => sel i && (Spec.Deque.step cap (l i) (op i)).isNone then (l, none)
  else
    (fun i => if sel i then ((Spec.Deque.step cap (l i) (op i)).map Prod.fst).getD (l i) else l i,
      some fun i => if sel i then (Spec.Deque.step cap (l i) (op i)).map Prod.snd else none)

/-- All outputs of a batched history according to the specification. -/
def specRun (cap : Nat) : (Fin B → List α) → List (Call B α) → List (Option (Fin B → Option (Out α)))
  | _, [] => []
  | l, op :: ops =>
    let r := specStep cap l (fun i => op.at i) (fun i => op.selects i)
    r.2 :: specRun cap r.1 ops

/-- A returned batch agrees with the specification if every selected item got the specified output; a refused operation
must raise `IndexError`. -/
def Agrees : Except PyErr (Fin B → Out α) → Option (Fin B → Option (Out α)) → Prop
  | .error e, none => e = .indexError
  | .ok f, some g => ∀ i o, g i = some o → f i = o
  | _, _ => False

theorem spec_sim (cap : Nat) (hcap : 2 ≤ cap) (fallback : α) (c : Batch B α) (l : Fin B → List α) (op : Call B α)
    (hk : ∀ i, (op.at i).KeyWithin cap) (h : ∀ i, Rep (cap : Int) (c i) (l i)) :
    Agrees (exec cap fallback c op).result (specStep cap l (fun i => op.at i) (fun i => op.selects i)).2 ∧
    (∀ i, Rep (cap : Int) ((exec cap fallback c op).state i)
      ((specStep cap l (fun i => op.at i) (fun i => op.selects i)).1 i)) ∧
    ((specStep cap l (fun i => op.at i) (fun i => op.selects i)).2 = none → (exec cap fallback c op).state = c) := by
  have hs := sim_step (cap := cap) rfl (by omega) h op hk fallback
  by_cases hb : ∃ i, op.selects i = true ∧ Spec.Deque.step cap (l i) (op.at i) = none
  · have hbad := hs.bad hb
    obtain ⟨i, h1, h2⟩ := hb
    have : specStep cap l (fun i => op.at i) (fun i => op.selects i) = (l, none) := by
      unfold specStep
      rw [if_pos]
      simp only [List.any_eq_true, List.mem_finRange, true_and]
      exact ⟨i, by simp [h1, h2]⟩
    rw [this, hbad.1, hbad.2]
    exact ⟨rfl, h, fun _ => rfl⟩
  · obtain ⟨f, h1, h2⟩ := hs.good hb
    have hne : ¬ ((List.finRange B).any fun i => op.selects i && (Spec.Deque.step cap (l i) (op.at i)).isNone) = true := by
      simp only [List.any_eq_true, List.mem_finRange, true_and]
      rintro ⟨i, hi⟩
      simp at hi
      exact hb ⟨i, hi⟩
    simp only [specStep, if_neg hne]
    refine ⟨?_, ?_, by simp⟩
    · rw [h1]
      intro i o hio
      by_cases hsel : op.selects i = true
      · obtain ⟨l', h3, _⟩ := (h2 i).1 hsel
        simp [hsel, h3] at hio
        exact hio
      · simp [hsel] at hio
    · intro i
      by_cases hsel : op.selects i = true
      · obtain ⟨l', h3, h4⟩ := (h2 i).1 hsel
        simpa [hsel, h3] using h4
      · simpa [hsel] using (h2 i).2 (by simpa using hsel)

/-- **C02.** Any history of (masked) calls on a batch of lists behaves as if each item were a separate bounded deque that sees
only the calls whose mask selects it; a call is refused (with no effect on any item) iff it is refused by some selected
item's deque. -/
theorem C02_batch_items_isolated (cap : Nat) (hcap : 2 ≤ cap) (junk : Fin B → Nat → α) (fallback : α)
    (ops : List (Call B α)) (hk : ∀ op ∈ ops, ∀ i, (op.at i).KeyWithin cap) :
    List.Forall₂ Agrees (run cap fallback (new B junk) ops) (specRun cap (fun _ => []) ops) := by
  have key : ∀ (ops : List (Call B α)) (c : Batch B α) (l : Fin B → List α),
      (∀ op ∈ ops, ∀ i, (op.at i).KeyWithin cap) → (∀ i, Rep (cap : Int) (c i) (l i)) →
      List.Forall₂ Agrees (run cap fallback c ops) (specRun cap l ops) := by
    intro ops
    induction ops with
    | nil => intros; exact .nil
    | cons op ops ih =>
      intro c l hk h
      obtain ⟨h1, h2, _⟩ := spec_sim cap hcap fallback c l op (hk op (by simp)) h
      exact .cons h1 (ih _ _ (fun o ho => hk o (List.mem_cons_of_mem _ ho)) h2)
  exact key ops (new B junk) (fun _ => []) hk (fun i => rep_new _ ⟨rfl, rfl⟩)

/-- Concrete case: two items, masks differ, the third call is refused because of item 0 alone, and item 1 is untouched. -/
example : let ops : List (Call 2 Nat) := [.append (fun i => i.val) (fun _ => true), .append (fun _ => 5) (fun i => i = 0),
      .append (fun _ => 6) (fun i => i = 0), .get (fun _ => -1)]
    (∀ op ∈ ops, ∀ i, (op.at i).KeyWithin 2) ∧
    (specRun 2 (fun _ => []) ops).map (fun o => o.map fun f => (f 0, f 1))
      = [some (some .unit, some .unit), some (some .unit, none), none, some (some (.val 5), some (.val 1))] := by
  exact ⟨by simp [Call.at, Op.KeyWithin], rfl⟩

/-- The contents of every item after a history, according to the specification. -/
def specFinal (cap : Nat) : (Fin B → List α) → List (Call B α) → Fin B → List α
  | l, [] => l
  | l, op :: ops => specFinal cap (specStep cap l (fun i => op.at i) (fun i => op.selects i)).1 ops

theorem reachable (cap : Nat) (hcap : 2 ≤ cap) (fallback : α) (ops : List (Call B α)) :
    ∀ (c : Batch B α) (l : Fin B → List α), (∀ op ∈ ops, ∀ i, (op.at i).KeyWithin cap) →
      (∀ i, Rep (cap : Int) (c i) (l i)) →
      ∀ i, Rep (cap : Int) (runState cap fallback c ops i) (specFinal cap l ops i) := by
  induction ops with
  | nil => intro c l _ h; exact h
  | cons op ops ih =>
    intro c l hk h
    obtain ⟨_, h2, _⟩ := spec_sim cap hcap fallback c l op (hk op (by simp)) h
    exact ih _ _ (fun o ho => hk o (List.mem_cons_of_mem _ ho)) h2

/-- **C02 (failed calls).** After any history, a call that raises leaves the whole batch unchanged. -/
theorem C02_failed_call_changes_nothing (cap : Nat) (hcap : 2 ≤ cap) (junk : Fin B → Nat → α) (fallback : α)
    (ops : List (Call B α)) (hk : ∀ op ∈ ops, ∀ i, (op.at i).KeyWithin cap)
    (op : Call B α) (hop : ∀ i, (op.at i).KeyWithin cap) (e : PyErr)
    (he : (exec cap fallback (runState cap fallback (new B junk) ops) op).result = .error e) :
    (exec cap fallback (runState cap fallback (new B junk) ops) op).state = runState cap fallback (new B junk) ops := by
  have h := reachable cap hcap fallback ops (new B junk) (fun _ => []) hk (fun i => rep_new _ ⟨rfl, rfl⟩)
  obtain ⟨h1, _, h3⟩ := spec_sim cap hcap fallback _ _ op hop h
  apply h3
  rw [he] at h1
  cases hs : (specStep cap (specFinal cap (fun _ => []) ops) (fun i => op.at i) (fun i => op.selects i)).2 with
  | none => rfl
  | some g => rw [hs] at h1; exact h1.elim

example : (exec 2 0 (runState 2 0 (new 1 fun _ _ => 7) []) (.pop fun _ => true)).result = .error .indexError := rfl

/-! ### C03 -/

/-- **C03, the part that holds.** After any history, `get(k)` and `set_(k, x)` with an index `k` outside `[-n, n)` (`n` = current
length) raise `IndexError` and change nothing, provided `-max_length ≤ k < max_length`. Missing: indices beyond
`max_length`, where the claim is false (see `C03_violated`). -/
theorem C03_out_of_range_rejected_partial (cap : Nat) (hcap : 2 ≤ cap) (junk : Fin 1 → Nat → α) (fallback : α)
    (ops : List (Op α)) (hk : ∀ op ∈ ops, op.KeyWithin cap) (k : Int) (hkw : -(cap : Int) ≤ k ∧ k < cap)
    (hout : ¬ (-((Spec.Deque.final cap [] ops).length : Int) ≤ k ∧ k < (Spec.Deque.final cap [] ops).length)) (x : α) :
    let c := runState (cap : Int) fallback (new 1 junk) (ops.map single)
    get cap c (fun _ => k) = .error .indexError ∧
    set cap c (fun _ => k) (fun _ => x) (fun _ => true) = ⟨c, .error .indexError⟩ := by
  have hat : ∀ op : Op α, ∀ i, (single op).at i = op := by intro op i; cases op <;> rfl
  have hsel : ∀ op : Op α, ∀ i, (single op).selects i = true := by intro op i; cases op <;> rfl
  have hfin : ∀ (ops : List (Op α)) (l : Fin 1 → List α),
      specFinal cap l (ops.map single) = fun _ => Spec.Deque.final cap (l 0) ops := by
    intro ops
    induction ops with
    | nil => intro l; funext i; rw [Subsingleton.elim i 0]; rfl
    | cons op ops ih =>
      intro l
      simp only [List.map_cons, specFinal, ih]
      funext _
      simp only [specStep, hat, hsel, Spec.Deque.final]
      cases hst : Spec.Deque.step cap (l 0) op with
      | none => simp [List.finRange, hst]
      | some p => simp [List.finRange, hst]
  have h := reachable cap hcap fallback (ops.map single) (new 1 junk) (fun _ => [])
    (by
      intro op hop i
      obtain ⟨o, ho, rfl⟩ := List.mem_map.mp hop
      rw [hat]; exact hk o ho) (fun i => rep_new _ ⟨rfl, rfl⟩)
  rw [hfin] at h
  have hb := badKey_true h (by omega) (key := fun _ => k) (fun _ => hkw) (w := fun _ => true)
  have hb' := hb.mpr ⟨0, rfl, pyIndex_none.mpr hout⟩
  simp only [get, set, modify, hb', if_true, and_self]

example : ∃ ops : List (Op Nat), (∀ op ∈ ops, op.KeyWithin (3 : Nat)) ∧
    (Spec.Deque.final 3 [] ops).length = 1 ∧ ¬ (-(1 : Int) ≤ 2 ∧ (2 : Int) < 1) :=
  ⟨[.append 1, .append 2, .popLeft], by simp [Op.KeyWithin], rfl, by decide⟩

/-- **C03 is false of the code**: for every capacity, after a single `append_(x)`, the out-of-range index `max_length` is accepted
and returns `x` (the key is corrected once by `max_length` before it is validated, `structures.py:1724-1752`). -/
theorem C03_violated (cap : Nat) (hcap : 2 ≤ cap) (junk : Fin 1 → Nat → α) (fallback x : α) :
    (run cap fallback (new 1 junk) [.append (fun _ => x) (fun _ => true), .get (fun _ => (cap : Int))]).map
      (fun r => r.map fun f => f 0) = [.ok .unit, .ok (.val x)] := by
  have h0 : ∀ i, Rep (cap : Int) ((new 1 junk : Batch 1 α) i) ((fun _ => []) i : List α) := fun i => rep_new _ ⟨rfl, rfl⟩
  obtain ⟨h1, h2, _⟩ := spec_sim cap hcap fallback (new 1 junk) (fun _ => []) (.append (fun _ => x) (fun _ => true))
    (by simp [Call.at, Op.KeyWithin]) h0
  have hst : specStep cap (fun _ : Fin 1 => ([] : List α)) (fun _ => .append x) (fun _ => true)
      = (fun _ => [x], some fun _ => some .unit) := by
    have : 0 < cap := by omega
    simp [specStep, Spec.Deque.step, this]
  simp only [Call.at, Call.selects] at h1 h2
  rw [hst] at h1 h2
  have hL : (2 : Int) ≤ cap := by omega
  generalize hc : (exec (cap : Int) fallback (new 1 junk) (.append (fun _ => x) (fun _ => true))) = o at h1 h2
  have hr : o.result.map (fun f => f 0) = .ok .unit := by
    cases hres : o.result with
    | error e => rw [hres] at h1; exact h1.elim
    | ok f => rw [hres] at h1; have := h1 0 .unit rfl; simp [Except.map, this]
  have hacc := ((h2 0).accept_iff hL (cap : Int))
  have hrng := (h2 0).rng (by simp)
  have hv : isUnderlyingKeyValid (cap : Int) (o.state 0) (underlyingKey cap (o.state 0) cap) = true := by
    rw [hacc]; right; left; simp; omega
  have hu : underlyingKey (cap : Int) (o.state 0) cap = (o.state 0).beg := by
    have h1 : (0 : Int) ≤ cap := by omega
    have h2 : ¬ ((o.state 0).beg + cap < 0) := by omega
    have h3 : (o.state 0).beg + cap ≥ cap := by omega
    simp only [underlyingKey, modUnderlyingKey, ge_iff_le, h1, if_true, h2, decide_false, h3]
    simp
  have hread : readAt (cap : Int) (o.state 0) (o.state 0).beg = x := by
    have := (h2 0).read hL (j := 0) (by simp)
    have hb : (o.state 0).beg + ((0 : Nat) : Int) = (o.state 0).beg := by simp
    rw [hb, if_pos (by omega)] at this
    simpa using this
  have haddr : (address (cap : Int) (o.state 0).beg).isNone = false := by
    rw [address_pos (by omega) (by omega)]; rfl
  have hget : get (cap : Int) o.state (fun _ => cap) = .ok fun _ => x := by
    have hbk : badKey (cap : Int) o.state (fun _ => cap) (fun _ => true) = false := by
      unfold badKey; rw [anyB_false]; intro i; rw [Subsingleton.elim i 0]; simp [hv]
    have hba : badAddress (cap : Int) o.state (fun _ => cap) = false := by
      unfold badAddress; rw [anyB_false]; intro i; rw [Subsingleton.elim i 0, hu, haddr]
    simp only [get, hbk, hba, Bool.false_eq_true, if_false]
    congr 1; funext i; rw [Subsingleton.elim i 0, hu, hread]
  simp only [run, List.map_cons, List.map_nil]
  rw [hc, hr]
  simp only [exec, hget]
  rfl

/-- **C01 is false of the code for `max_length = 1`**: a fresh list is considered full, so `append_` is refused and `length`
reports 1. -/
theorem C01_violated_for_max_length_one (junk : Fin 1 → Nat → α) (fallback x : α) :
    (run 1 fallback (new 1 junk) [.length, .append (fun _ => x) (fun _ => true)]).map (fun r => r.map fun f => f 0)
      = [.ok (.len 1), .error .indexError] := rfl

/-- **A refused value still grows the list**: `append_` with a wrong-shaped value raises after the end was moved, so the length
of the list changes although the call failed. -/
theorem C01_violated_by_bad_shape :
    let o := appendBadShape 3 (new 1 fun _ _ => (7 : Nat)) (fun _ => true)
    o.result = .error .runtimeError ∧ length 3 (o.state 0) = 1 ∧ length 3 ((new 1 fun _ _ => (7 : Nat)) 0) = 0 :=
  ⟨rfl, rfl, rfl⟩

/-- **Masked clearing never works**: `clear(where=...)` raises `AttributeError` for every batch and mask. -/
theorem C02_violated_masked_clear (c : Batch B α) (w : Fin B → Bool) :
    clearWhere c w = ⟨c, .error .attributeError⟩ := rfl

end EvoTorch.CList
