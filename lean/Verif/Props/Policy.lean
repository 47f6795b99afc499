import Verif.Model.Policy
import Mathlib.Data.List.Nodup
import Mathlib.Algebra.Order.Ring.Rat
import Mathlib.Tactic.Ring
import Mathlib.Tactic.NormNum
/-!
C105: the rows of a vectorised policy are independent networks.
-/
namespace EvoTorch.Policy
variable {P X Y V I : Type} [Zero V]

/-! ### Specification: one network on its own -/

/-- What happens to one network: it gets parameters, it is called, its hidden state is forgotten. -/
inductive LaneOp (P X : Type) where
  | set (p : P)
  | call (x : X)
  | reset

/-- The outputs of one network, with its parameters and its hidden state. -/
def laneRun (f : P → X → Option (Tree V) → Y × Option (Tree V)) : Option P × Option (Tree V) → List (LaneOp P X) → List Y
  | _, [] => []
  | (_, s), .set p :: ops => laneRun f (some p, s) ops
  | (p, _), .reset :: ops => laneRun f (p, none) ops
  | (none, s), .call _ :: ops => laneRun f (none, s) ops
  | (some p, s), .call x :: ops => (f p x s).1 :: laneRun f (some p, (f p x s).2) ops

/-- The rows which an index means, for `n` rows. -/
def positions (n : ℕ) : Index → List ℕ
  | .mask m => (List.range n).filter fun i => m.getD i false
  | .ints l => l.map fun z => (if z < 0 then z + (n : Int) else z).toNat

/-- Indices which torch accepts. -/
def InRange (n : ℕ) : Index → Prop
  | .mask m => m.length = n
  | .ints l => ∀ z ∈ l, -(n : Int) ≤ z ∧ z < n

/-- What a call of the policy means for row `i`. -/
def laneOps (n : ℕ) (heap : ℕ → List P) (i : ℕ) : Op P X → List (LaneOp P X)
  | .setAll pid rst => ((heap pid)[i]?.toList.map .set) ++ if rst then [.reset] else []
  | .setSome rows ix rst => (((positions n ix).zip rows).lookup i).toList.map .set ++ if rst && decide (i ∈ positions n ix) then [.reset] else []
  | .call xs => xs[i]?.toList.map .call
  | .reset none => [.reset]
  | .reset (some ix) => if i ∈ positions n ix then [.reset] else []

/-- Calls with the right sizes. -/
def Legal (n : ℕ) (heap : ℕ → List P) : Op P X → Prop
  | .setAll pid _ => (heap pid).length = n
  | .setSome rows ix _ => InRange n ix ∧ (positions n ix).Nodup ∧ rows.length = (positions n ix).length
  | .call xs => xs.length = n
  | .reset none => True
  | .reset (some ix) => InRange n ix

/-- The tensor objects which are given as parameters. -/
def given : List (Op P X) → List ℕ
  | [] => []
  | .setAll pid _ :: ops => pid :: given ops
  | _ :: ops => given ops

/-- The structure of a hidden state. -/
def Tree.shape {α : Type} (t : Tree α) : Tree Unit := t.map fun _ => ()

/-- The networks for which the claim holds: what they return has always the same structure; a hidden state of zeros means the same as no hidden state; they keep no state of
their own. -/
structure Good (F : Module I P X V Y) (shape : Option (Tree Unit)) : Prop where
  uniform : ∀ c p x s, (F c p x s).2.map Tree.shape = shape
  fresh : ∀ sh, shape = some sh → ∀ c p x, F c p x (some (sh.map fun _ => 0)) = F c p x none
  pure : ∀ c c' p x s, F c p x s = F c' p x s

/-! ### Lemmas -/

theorem Tree.map_map {α β γ : Type} (f : α → β) (g : β → γ) (t : Tree α) : (t.map f).map g = t.map (g ∘ f) := by
  induction t with
  | tensor a => rfl
  | text => rfl
  | other => rfl
  | nil => rfl
  | node k c r h1 h2 => simp only [Tree.map, h1, h2]

theorem Tree.map_congr {α β : Type} {f g : α → β} (h : ∀ a, f a = g a) (t : Tree α) : t.map f = t.map g := by rw [funext h]

theorem setRows_getElem? {α : Type} (l : List α) (idx : List ℕ) (v : α) (i : ℕ) : (setRows l idx v)[i]? = if i ∈ idx ∧ i < l.length then some v else l[i]? := by
  induction idx generalizing l with
  | nil => simp [setRows]
  | cons j idx ih =>
    have : setRows l (j :: idx) v = setRows (l.set j v) idx v := rfl
    rw [this, ih]
    by_cases hij : j = i
    · subst hij
      by_cases hl : j < l.length <;> simp [List.getElem?_set, hl]
    · have : ¬ i = j := fun h => hij h.symm
      simp [List.getElem?_set, hij, this]

theorem setRows_getD (l : List V) (idx : List ℕ) (i : ℕ) : (setRows l idx 0).getD i 0 = if i ∈ idx then 0 else l.getD i 0 := by
  rw [List.getD_eq_getElem?_getD, setRows_getElem?, List.getD_eq_getElem?_getD]
  by_cases h : i ∈ idx
  · by_cases hl : i < l.length
    · simp [h, hl]
    · simp [h, hl, List.getElem?_eq_none (not_lt.1 hl)]
  · simp [h]

theorem lane_reset (i : ℕ) (idx : List ℕ) (t : Tree (List V)) :
    lane i (resetTensors idx t) = if i ∈ idx then (lane i t).shape.map fun _ => 0 else lane i t := by
  induction t with
  | tensor a =>
    simp only [resetTensors, lane, Tree.map, setRows_getD, Tree.shape]
    split <;> rfl
  | text => split <;> rfl
  | other => split <;> rfl
  | nil => split <;> rfl
  | node k c r h1 h2 =>
    simp only [lane, resetTensors, Tree.map, Tree.shape] at h1 h2 ⊢
    rw [h1, h2]
    split <;> rfl

theorem lane_reset_shape (i : ℕ) (idx : List ℕ) (t : Tree (List V)) : (lane i (resetTensors idx t)).shape = (lane i t).shape := by
  rw [lane_reset]
  split
  · simp only [Tree.shape, Tree.map_map, Function.comp_def]
  · rfl

theorem zipCons_spec (a : Tree V) (t : Tree (List V)) (sh : Tree Unit) (h1 : a.shape = sh) (h2 : t.shape = sh) :
    ∃ t', zipCons a t = some t' ∧ t'.shape = sh ∧ lane 0 t' = a ∧ ∀ i, lane (i + 1) t' = lane i t := by
  subst h1
  induction a generalizing t with
  | tensor a => cases t <;> simp [Tree.shape, Tree.map] at h2 <;> simp [zipCons, Tree.shape, Tree.map, lane]
  | text => cases t <;> simp [Tree.shape, Tree.map] at h2 <;> simp [zipCons, Tree.shape, Tree.map, lane]
  | other => cases t <;> simp [Tree.shape, Tree.map] at h2 <;> simp [zipCons, Tree.shape, Tree.map, lane]
  | nil => cases t <;> simp [Tree.shape, Tree.map] at h2 <;> simp [zipCons, Tree.shape, Tree.map, lane]
  | node k c r h3 h4 =>
    cases t with
    | node k' c' r' =>
      simp only [Tree.shape, Tree.map, Tree.node.injEq] at h2
      obtain ⟨rfl, hc, hr⟩ := h2
      obtain ⟨tc, e1, e2, e3, e4⟩ := h3 c' hc
      obtain ⟨tr, f1, f2, f3, f4⟩ := h4 r' hr
      refine ⟨.node k' tc tr, by simp [zipCons, e1, f1], ?_, ?_, ?_⟩
      · simp only [Tree.shape, Tree.map] at e2 f2 ⊢; rw [e2, f2]
      · simp only [lane, Tree.map] at e3 f3 ⊢; rw [e3, f3]
      · intro i
        have h5 := e4 i
        have h6 := f4 i
        simp only [lane, Tree.map] at h5 h6 ⊢
        rw [h5, h6]
    | _ => simp [Tree.shape, Tree.map] at h2

theorem stack_spec (ts : List (Tree V)) (sh : Tree Unit) (hne : ts ≠ []) (h : ∀ t ∈ ts, t.shape = sh) :
    ∃ t, stack ts = some t ∧ t.shape = sh ∧ ∀ i (hi : i < ts.length), lane i t = ts[i] := by
  induction ts with
  | nil => exact absurd rfl hne
  | cons a ts ih =>
    cases ts with
    | nil =>
      refine ⟨a.map ([·]), rfl, ?_, ?_⟩
      · simp only [Tree.shape, Tree.map_map]; exact h a (by simp)
      · intro i hi
        have : i = 0 := by simp at hi; omega
        subst this
        simp only [lane, Tree.map_map, List.getElem_cons_zero]
        have : ∀ b : Tree V, b.map ((fun l : List V => l.getD 0 0) ∘ fun x => [x]) = b := by
          intro b
          induction b with
          | node k c r h1 h2 => simp only [Tree.map, h1, h2]
          | tensor a => simp [Tree.map]
          | _ => rfl
        exact this a
    | cons b ts =>
      obtain ⟨t, e1, e2, e3⟩ := ih (by simp) (fun t ht => h t (List.mem_cons_of_mem _ ht))
      obtain ⟨t', f1, f2, f3, f4⟩ := zipCons_spec a t sh (h a (by simp)) e2
      refine ⟨t', by simp only [stack, e1, Option.bind_some, f1], f2, ?_⟩
      intro i hi
      cases i with
      | zero => exact f3
      | succ i => rw [f4, e3 i (by simpa using hi)]; rfl

theorem resolveInt_ok (n : ℕ) (z : Int) (h : -(n : Int) ≤ z ∧ z < n) : resolveInt n z = .ok (if z < 0 then z + n else z).toNat ∧ (if z < 0 then z + n else z).toNat < n := by
  unfold resolveInt
  by_cases hz : z < 0
  · rw [if_neg (by omega), if_pos (by omega), if_pos hz]; exact ⟨rfl, by omega⟩
  · rw [if_pos (by omega), if_neg hz]; exact ⟨rfl, by omega⟩

theorem resolve_ok (n : ℕ) (ix : Index) (h : InRange n ix) : ix.resolve n = .ok (positions n ix) ∧ ∀ j ∈ positions n ix, j < n := by
  cases ix with
  | mask m =>
    have : m.length = n := h
    refine ⟨by simp [Index.resolve, this, positions], fun j hj => ?_⟩
    simp only [positions, List.mem_filter, List.mem_range] at hj
    exact hj.1
  | ints l =>
    have h' : ∀ z ∈ l, -(n : Int) ≤ z ∧ z < n := h
    constructor
    · clear h
      simp only [Index.resolve, positions]
      induction l with
      | nil => rfl
      | cons z l ih =>
        rw [List.mapM_cons, (resolveInt_ok n z (h' z (by simp))).1, ih (fun y hy => h' y (List.mem_cons_of_mem _ hy))]
        rfl
    · intro j hj
      simp only [positions, List.mem_map] at hj
      obtain ⟨z, hz, rfl⟩ := hj
      exact (resolveInt_ok n z (h' z hz)).2

theorem putRows_length {α : Type} (l : List α) (idx : List ℕ) (vs : List α) : (putRows l idx vs).length = l.length := by
  induction idx generalizing l vs with
  | nil => simp [putRows]
  | cons i idx ih =>
    cases vs with
    | nil => rfl
    | cons v vs => simp [putRows, ih]

theorem putRows_getElem? {α : Type} (l : List α) (idx : List ℕ) (vs : List α) (hd : idx.Nodup) (hlen : vs.length = idx.length) (i : ℕ) (hi : i < l.length) :
    (putRows l idx vs)[i]? = ((idx.zip vs).lookup i).or l[i]? := by
  induction idx generalizing l vs with
  | nil => simp [putRows]
  | cons j idx ih =>
    cases vs with
    | nil => simp at hlen
    | cons v vs =>
      simp only [List.nodup_cons] at hd
      rw [putRows, ih _ _ hd.2 (by simpa using hlen) (by simpa using hi)]
      simp only [List.zip_cons_cons, List.lookup_cons]
      by_cases hij : i = j
      · subst hij
        have hn : (idx.zip vs).lookup i = none := by
          rw [List.lookup_eq_none_iff]
          intro p hp
          have := (List.of_mem_zip hp).1
          simp only [beq_eq_false_iff_ne, ne_eq, bne_iff_ne] at *
          intro he
          exact hd.1 (by rw [he]; exact this)
        simp [hn, hi]
      · have h1 : (i == j) = false := by simpa using hij
        rw [h1, List.getElem?_set_ne (fun h => hij h.symm)]

/-! ### The simulation -/

/-- The hidden state of a row, and that of the network on its own. -/
def StateRel (shape : Option (Tree Unit)) (i : ℕ) (state : Option (Tree (List V))) (s : Option (Tree V)) : Prop :=
  state = none ∧ s = none ∨ ∃ t sh, state = some t ∧ shape = some sh ∧ (lane i t).shape = sh ∧ (s = some (lane i t) ∨ s = none ∧ lane i t = sh.map fun _ => 0)

theorem StateRel.call {F : Module I P X V Y} {shape : Option (Tree Unit)} (hF : Good F shape) {i : ℕ} {state : Option (Tree (List V))} {s : Option (Tree V)} (h : StateRel shape i state s)
    (c c' : I) (p : P) (x : X) : F c p x (state.map (lane i)) = F c' p x s := by
  rcases h with ⟨rfl, rfl⟩ | ⟨t, sh, rfl, h1, h2, rfl | ⟨rfl, h3⟩⟩
  · exact hF.pure _ _ _ _ _
  · exact hF.pure _ _ _ _ _
  · rw [Option.map_some, h3, hF.fresh sh h1]; exact hF.pure _ _ _ _ _

theorem StateRel.reset {shape : Option (Tree Unit)} {i : ℕ} {t : Tree (List V)} {s : Option (Tree V)} (idx : List ℕ) (h : StateRel shape i (some t) s) :
    StateRel shape i (some (resetTensors idx t)) (if i ∈ idx then none else s) := by
  rcases h with ⟨h, _⟩ | ⟨t', sh, ht, h1, h2, h3⟩
  · cases h
  · cases ht
    refine Or.inr ⟨_, sh, rfl, h1, by rw [lane_reset_shape, h2], ?_⟩
    rw [lane_reset]
    split
    · exact Or.inr ⟨rfl, by rw [h2]⟩
    · exact h3

/-- The policy and the networks on their own (`lanes`). -/
structure Sim (n : ℕ) (heap : ℕ → List P) (shape : Option (Tree Unit)) (ops : List (Op P X)) (st : St I P V) (lanes : ℕ → Option P × Option (Tree V)) : Prop where
  fresh : ∀ pid ∈ given ops, st.heap pid = heap pid
  params : ∃ pid, st.params = some pid ∧ pid ∉ given ops ∧ (st.heap pid).length = n ∧ ∀ i < n, (lanes i).1 = (st.heap pid)[i]?
  state : ∀ i < n, StateRel shape i st.state (lanes i).2

/-- One network after some operations. -/
def laneStep (f : P → X → Option (Tree V) → Y × Option (Tree V)) : Option P × Option (Tree V) → LaneOp P X → Option P × Option (Tree V)
  | (_, s), .set p => (some p, s)
  | (p, _), .reset => (p, none)
  | (none, s), .call _ => (none, s)
  | (some p, s), .call x => (some p, (f p x s).2)

omit [Zero V] in
theorem laneRun_append (f : P → X → Option (Tree V) → Y × Option (Tree V)) (a : List (LaneOp P X)) : ∀ (l : Option P × Option (Tree V)) (b : List (LaneOp P X)),
    laneRun f l (a ++ b) = laneRun f l a ++ laneRun f (a.foldl (laneStep f) l) b := by
  induction a with
  | nil => intro l b; rfl
  | cons op a ih =>
    intro l b
    obtain ⟨p, s⟩ := l
    cases op with
    | set q => simp only [List.cons_append, laneRun, ih, List.foldl_cons, laneStep]
    | reset => simp only [List.cons_append, laneRun, ih, List.foldl_cons, laneStep]
    | call x =>
      cases p with
      | none => simp only [List.cons_append, laneRun, ih, List.foldl_cons, laneStep]
      | some p => simp only [List.cons_append, laneRun, ih, List.foldl_cons, laneStep]

omit [Zero V] in
theorem collect (l : List (Y × Option (Tree V))) (h : ∀ r ∈ l, ∃ t, r.2 = some t) :
    ∃ ts : List (Tree V), l.filterMap (·.2) = ts ∧ ts.length = l.length ∧ l.map (·.2) = ts.map some := by
  induction l with
  | nil => exact ⟨[], rfl, rfl, rfl⟩
  | cons r l ih =>
    obtain ⟨ts, g1, g2, g3⟩ := ih (fun r hr => h r (List.mem_cons_of_mem _ hr))
    obtain ⟨t, ht⟩ := h r (by simp)
    exact ⟨t :: ts, by simp [ht, g1], by simp [g2], by simp [ht, g3]⟩

theorem step_sim {n : ℕ} (hn : 0 < n) {heap : ℕ → List P} {shape : Option (Tree Unit)} {F : Module I P X V Y} (hF : Good F shape) (tick : I → I) (c : I) (op : Op P X) (ops : List (Op P X))
    (hl : Legal n heap op) (hd : (given (op :: ops)).Nodup) (st : St I P V) (lanes : ℕ → Option P × Option (Tree V)) (h : Sim n heap shape (op :: ops) st lanes) :
    ∃ st' out, step F tick st op = .ok (st', out) ∧ Sim n heap shape ops st' (fun i => (laneOps n heap i op).foldl (laneStep (F c)) (lanes i)) ∧
      (∀ ys ∈ out, ys.length = n) ∧ ∀ i < n, out.toList.map (·[i]?) = (laneRun (F c) (lanes i) (laneOps n heap i op)).map some := by
  obtain ⟨pid, hp, hpn, hpl, hpr⟩ := h.params
  have hsize : st.size = n := by simp [St.size, hp, hpl]
  cases op with
  | setAll q rst =>
    have hq : st.heap q = heap q := h.fresh q (by simp [given])
    have hql : (heap q).length = n := hl
    have hqn : q ∉ given ops := by simp only [given, List.nodup_cons] at hd; exact hd.1
    have hfr : ∀ r ∈ given ops, st.heap r = heap r := fun r hr => h.fresh r (by simp [given, hr])
    cases rst with
    | true =>
      refine ⟨{ st with params := some q, state := none }, none, by simp [step, reset, Except.map], ⟨hfr, ⟨q, rfl, hqn, by simp [hq, hql], ?_⟩, ?_⟩, by simp, ?_⟩
      · intro i hi
        simp [laneOps, hq, List.getElem?_eq_getElem (show i < (heap q).length by omega), laneStep]
      · intro i hi
        left
        simp [laneOps, List.getElem?_eq_getElem (show i < (heap q).length by omega), laneStep]
      · intro i hi
        simp [laneOps, List.getElem?_eq_getElem (show i < (heap q).length by omega), laneRun]
    | false =>
      refine ⟨{ st with params := some q }, none, by simp [step], ⟨hfr, ⟨q, rfl, hqn, by simp [hq, hql], ?_⟩, ?_⟩, by simp, ?_⟩
      · intro i hi
        simp [laneOps, hq, List.getElem?_eq_getElem (show i < (heap q).length by omega), laneStep]
      · intro i hi
        have := h.state i hi
        simpa [laneOps, List.getElem?_eq_getElem (show i < (heap q).length by omega), laneStep] using this
      · intro i hi
        simp [laneOps, List.getElem?_eq_getElem (show i < (heap q).length by omega), laneRun]
  | setSome rows ix rst =>
    obtain ⟨h1, h2, h3⟩ := hl
    obtain ⟨hr, hrl⟩ := resolve_ok n ix h1
    have hlane1 : ∀ i, ((((positions n ix).zip rows).lookup i).toList.map (LaneOp.set (X := X))).foldl (laneStep (F c)) (lanes i) =
        ((((positions n ix).zip rows).lookup i).or (lanes i).1, (lanes i).2) := by
      intro i
      cases ((positions n ix).zip rows).lookup i <;> simp [laneStep]
    have hrun1 : ∀ i (b : List (LaneOp P X)), (∀ l, laneRun (F c) l b = []) →
        laneRun (F c) (lanes i) ((((positions n ix).zip rows).lookup i).toList.map (LaneOp.set (X := X)) ++ b) = [] := by
      intro i b hb
      rw [laneRun_append, hb]
      cases ((positions n ix).zip rows).lookup i <;> simp [laneRun]
    let heap' : ℕ → List P := fun i => if i = pid then putRows (st.heap pid) (positions n ix) rows else st.heap i
    have hfr : ∀ r ∈ given ops, heap' r = heap r := by
      intro r hrr
      have hne : r ≠ pid := by
        rintro rfl
        exact hpn (by simp [given, hrr])
      simp only [heap', hne, if_false]
      exact h.fresh r (by simp [given, hrr])
    have hpn' : pid ∉ given ops := fun hh => hpn (by simp [given, hh])
    have hlen' : (heap' pid).length = n := by simp [heap', putRows_length, hpl]
    have hpr' : ∀ i < n, (((positions n ix).zip rows).lookup i).or (lanes i).1 = (heap' pid)[i]? := by
      intro i hi
      simp only [heap', if_true]
      rw [putRows_getElem? _ _ _ h2 h3 i (by omega), hpr i hi]
    cases rst with
    | false =>
      refine ⟨{ st with heap := heap' }, none, ?_, ⟨hfr, ⟨pid, hp, hpn', hlen', ?_⟩, ?_⟩, by simp, ?_⟩
      · simp only [step, hp, hsize, hr, bind, Except.bind, h3]; simp [heap']; rfl
      · intro i hi
        simp only [laneOps, Bool.false_and, Bool.false_eq_true, if_false, List.append_nil, hlane1]
        exact hpr' i hi
      · intro i hi
        simp only [laneOps, Bool.false_and, Bool.false_eq_true, if_false, List.append_nil, hlane1]
        exact h.state i hi
      · intro i hi
        simp only [laneOps, Bool.false_and, Bool.false_eq_true, if_false]
        rw [hrun1 i [] (fun l => rfl)]; rfl
    | true =>
      have hstate : ∀ i, ((laneOps n heap i (.setSome rows ix true)).foldl (laneStep (F c)) (lanes i)) =
          ((((positions n ix).zip rows).lookup i).or (lanes i).1, if i ∈ positions n ix then none else (lanes i).2) := by
        intro i
        simp only [laneOps, Bool.true_and, List.foldl_append, hlane1, decide_eq_true_eq]
        split <;> simp [laneStep]
      have hout : ∀ i, laneRun (F c) (lanes i) (laneOps n heap i (.setSome rows ix true)) = [] := by
        intro i
        simp only [laneOps, Bool.true_and, decide_eq_true_eq]
        apply hrun1
        intro l; split <;> rfl
      cases hst : st.state with
      | none =>
        refine ⟨{ st with heap := heap' }, none, ?_, ⟨hfr, ⟨pid, hp, hpn', hlen', ?_⟩, ?_⟩, by simp, ?_⟩
        · simp only [step, hp, hsize, hr, bind, Except.bind, h3, reset, hst]; simp [heap']; rfl
        · intro i hi; simp only [hstate]; exact hpr' i hi
        · intro i hi
          simp only [hstate, hst]
          have := h.state i hi
          rw [hst] at this
          rcases this with ⟨_, h5⟩ | ⟨t, _, h5, _⟩
          · left; simp [h5]
          · cases h5
        · intro i hi; rw [hout]; rfl
      | some t =>
        refine ⟨{ st with heap := heap', state := some (resetTensors (positions n ix) t) }, none, ?_, ⟨hfr, ⟨pid, hp, hpn', hlen', ?_⟩, ?_⟩, by simp, ?_⟩
        · simp only [step, hp, hsize, hr, bind, Except.bind, h3, reset, hst]; simp [heap']; rfl
        · intro i hi; simp only [hstate]; exact hpr' i hi
        · intro i hi
          simp only [hstate]
          have := h.state i hi
          rw [hst] at this
          exact this.reset _
        · intro i hi; rw [hout]; rfl
  | reset ix =>
    have hfr : ∀ r ∈ given ops, st.heap r = heap r := fun r hr => h.fresh r (by simpa [given] using hr)
    have hpn' : pid ∉ given ops := by simpa [given] using hpn
    cases ix with
    | none =>
      refine ⟨{ st with state := none }, none, by simp [step, reset, Except.map], ⟨hfr, ⟨pid, hp, hpn', hpl, ?_⟩, ?_⟩, by simp, ?_⟩
      · intro i hi; simpa [laneOps, laneStep] using hpr i hi
      · intro i hi; left; simp [laneOps, laneStep]
      · intro i hi; simp [laneOps, laneRun]
    | some ix =>
      obtain ⟨hr, hrl⟩ := resolve_ok n ix hl
      have hstate : ∀ i, ((laneOps n heap i (.reset (some ix))).foldl (laneStep (F c)) (lanes i)) = ((lanes i).1, if i ∈ positions n ix then none else (lanes i).2) := by
        intro i
        simp only [laneOps]
        split <;> simp [laneStep]
      have hout : ∀ i, laneRun (F c) (lanes i) (laneOps n heap i (.reset (some ix))) = [] := by
        intro i
        simp only [laneOps]
        split <;> simp [laneRun]
      cases hst : st.state with
      | none =>
        refine ⟨st, none, by simp [step, reset, hst, Except.map], ⟨hfr, ⟨pid, hp, hpn', hpl, ?_⟩, ?_⟩, by simp, ?_⟩
        · intro i hi; simp only [hstate]; exact hpr i hi
        · intro i hi
          simp only [hstate, hst]
          have := h.state i hi
          rw [hst] at this
          rcases this with ⟨_, h5⟩ | ⟨t, _, h5, _⟩
          · left; simp [h5]
          · cases h5
        · intro i hi; rw [hout]; rfl
      | some t =>
        refine ⟨{ st with state := some (resetTensors (positions n ix) t) }, none, ?_, ⟨hfr, ⟨pid, hp, hpn', hpl, ?_⟩, ?_⟩, by simp, ?_⟩
        · simp only [step, hsize, hr, bind, Except.bind, reset, hst, Except.map]; rfl
        · intro i hi; simp only [hstate]; exact hpr i hi
        · intro i hi
          simp only [hstate]
          have := h.state i hi
          rw [hst] at this
          exact this.reset _
        · intro i hi; rw [hout]; rfl
  | call xs =>
    have hfr : ∀ r ∈ given ops, st.heap r = heap r := fun r hr => h.fresh r (by simpa [given] using hr)
    have hpn' : pid ∉ given ops := by simpa [given] using hpn
    have hxl : xs.length = n := hl
    -- the results of the networks
    let res : ℕ → Option (Y × Option (Tree V)) := fun i => ((st.heap pid)[i]?).bind fun p => (xs[i]?).map fun x => F st.inner p x (st.state.map (lane i))
    have hres : ∀ i (hi : i < n), res i = some (F c ((st.heap pid)[i]'(by omega)) (xs[i]'(by omega)) (lanes i).2) := by
      intro i hi
      simp only [res, List.getElem?_eq_getElem (show i < (st.heap pid).length by omega), List.getElem?_eq_getElem (show i < xs.length by omega), Option.bind_some, Option.map_some]
      rw [(h.state i hi).call hF st.inner c]
    have hlist : ∀ m ≤ n, ∃ l : List (Y × Option (Tree V)), (List.range m).filterMap res = l ∧ l.length = m ∧ ∀ i (hi : i < m), l[i]? = res i := by
      intro m
      induction m with
      | zero => intro _; exact ⟨[], rfl, rfl, fun i hi => absurd hi (by omega)⟩
      | succ m ih =>
        intro hm
        obtain ⟨l, e1, e2, e3⟩ := ih (by omega)
        refine ⟨l ++ [F c ((st.heap pid)[m]'(by omega)) (xs[m]'(by omega)) (lanes m).2], ?_, by simp [e2], ?_⟩
        · rw [List.range_succ, List.filterMap_append, e1]; simp [hres m (by omega)]
        · intro i hi
          by_cases him : i < m
          · rw [List.getElem?_append_left (by omega)]; exact e3 i him
          · have : i = m := by omega
            subst this
            rw [List.getElem?_append_right (by omega), e2, hres i (by omega)]; simp
    obtain ⟨l, e1, e2, e3⟩ := hlist n (Nat.le_refl n)
    have hli : ∀ i (hi : i < n), l[i]? = some (F c ((st.heap pid)[i]'(by omega)) (xs[i]'(by omega)) (lanes i).2) := fun i hi => by rw [e3 i hi, hres i hi]
    have hlane : ∀ i (hi : i < n), (laneOps n heap i (Op.call xs : Op P X)).foldl (laneStep (F c)) (lanes i) =
        ((lanes i).1, (F c ((st.heap pid)[i]'(by omega)) (xs[i]'(by omega)) (lanes i).2).2) := by
      intro i hi
      have h1 := hpr i hi
      rw [List.getElem?_eq_getElem (show i < (st.heap pid).length by omega)] at h1
      have hab : lanes i = (some ((st.heap pid)[i]'(by omega)), (lanes i).2) := by rw [← h1]
      rw [hab]
      simp [laneOps, List.getElem?_eq_getElem (show i < xs.length by omega), laneStep]
    have hout : ∀ i (hi : i < n), laneRun (F c) (lanes i) (laneOps n heap i (Op.call xs : Op P X)) =
        [(F c ((st.heap pid)[i]'(by omega)) (xs[i]'(by omega)) (lanes i).2).1] := by
      intro i hi
      have h1 := hpr i hi
      rw [List.getElem?_eq_getElem (show i < (st.heap pid).length by omega)] at h1
      have hab : lanes i = (some ((st.heap pid)[i]'(by omega)), (lanes i).2) := by rw [← h1]
      rw [hab]
      simp [laneOps, List.getElem?_eq_getElem (show i < xs.length by omega), laneRun]
    have hcond : ¬ (xs.length ≠ (st.heap pid).length ∨ (st.heap pid).length = 0) := by omega
    have hrange : (List.range (st.heap pid).length).filterMap res = l := by rw [hpl]; exact e1
    have hmem : ∀ r ∈ l, r.2.map Tree.shape = shape := by
      intro r hr
      obtain ⟨i, hi, rfl⟩ := List.getElem_of_mem hr
      have := hli i (by omega)
      rw [List.getElem?_eq_getElem hi] at this
      rw [Option.some.inj this]
      exact hF.uniform _ _ _ _
    have houts : ∀ i < n, [(l.map (·.1))].map (·[i]?) = (laneRun (F c) (lanes i) (laneOps n heap i (Op.call xs : Op P X))).map some := by
      intro i hi
      rw [hout i hi]
      simp [hli i hi]
    cases hsh : shape with
    | none =>
      have hnone : l.filterMap (·.2) = [] := by
        rw [List.filterMap_eq_nil_iff]
        intro r hr
        have := hmem r hr
        rw [hsh] at this
        simpa using this
      refine ⟨{ st with inner := tick st.inner }, some (l.map (·.1)), ?_, ⟨hfr, ⟨pid, hp, hpn', hpl, ?_⟩, ?_⟩, by simp [e2], ?_⟩
      · simp only [step, call, hp, hcond, if_false]
        change Except.map _ (if (((List.range (st.heap pid).length).filterMap res).filterMap (·.2)).length = ((List.range (st.heap pid).length).filterMap res).length then _ else _) = _
        rw [hrange, hnone, if_neg (by simp; omega)]
        simp [hnone, Except.map]
      · intro i hi; simp only [hlane i hi]; exact hpr i hi
      · intro i hi
        simp only [hlane i hi]
        have h4 := hF.uniform c ((st.heap pid)[i]'(by omega)) (xs[i]'(by omega)) (lanes i).2
        rw [hsh] at h4
        have h5 : (F c ((st.heap pid)[i]'(by omega)) (xs[i]'(by omega)) (lanes i).2).2 = none := by simpa using h4
        rw [h5]
        have := h.state i hi
        rcases this with ⟨h6, _⟩ | ⟨t, sh, _, h6, _⟩
        · exact Or.inl ⟨h6, rfl⟩
        · rw [hsh] at h6; cases h6
      · intro i hi; exact houts i hi
    | some sh =>
      have hsome := collect l fun r hr => by
        have := hmem r hr
        rw [hsh] at this
        cases h7 : r.2 with
        | none => rw [h7] at this; cases this
        | some t => exact ⟨t, rfl⟩
      obtain ⟨ts, g1, g2, g3⟩ := hsome
      have hti : ∀ i (hi : i < n), (F c ((st.heap pid)[i]'(by omega)) (xs[i]'(by omega)) (lanes i).2).2 = some (ts[i]'(by omega)) := by
        intro i hi
        have := congrArg (·[i]?) g3
        simp only [List.getElem?_map, hli i hi, Option.map_some, List.getElem?_eq_getElem (show i < ts.length by omega)] at this
        exact Option.some.inj this
      have hts : ∀ t ∈ ts, t.shape = sh := by
        intro t ht
        obtain ⟨i, hi, rfl⟩ := List.getElem_of_mem ht
        have h8 := hF.uniform c ((st.heap pid)[i]'(by omega)) (xs[i]'(by omega)) (lanes i).2
        rw [hti i (by omega), hsh] at h8
        exact Option.some.inj h8
      obtain ⟨T, k1, k2, k3⟩ := stack_spec ts sh (by intro h0; simp [h0] at g2; omega) hts
      refine ⟨{ st with state := some T, inner := tick st.inner }, some (l.map (·.1)), ?_, ⟨hfr, ⟨pid, hp, hpn', hpl, ?_⟩, ?_⟩, by simp [e2], ?_⟩
      · simp only [step, call, hp, hcond, if_false]
        have hx := hrange
        simp only [res] at hx
        rw [hx]
        simp only [g1, g2, if_true, k1]
        rfl
      · intro i hi; simp only [hlane i hi]; exact hpr i hi
      · intro i hi
        simp only [hlane i hi]
        refine Or.inr ⟨T, sh, rfl, rfl, ?_, Or.inl ?_⟩
        · rw [k3 i (by omega)]; exact hts _ (List.getElem_mem _)
        · rw [hti i hi, k3 i (by omega)]
      · intro i hi; exact houts i hi

theorem run_sim {n : ℕ} (hn : 0 < n) {heap : ℕ → List P} {shape : Option (Tree Unit)} {F : Module I P X V Y} (hF : Good F shape) (tick : I → I) (c : I) (ops : List (Op P X)) :
    (∀ op ∈ ops, Legal n heap op) → (given ops).Nodup → ∀ (st : St I P V) (lanes : ℕ → Option P × Option (Tree V)), Sim n heap shape ops st lanes →
    ∃ st' outs, run F tick st ops = .ok (st', outs) ∧ (∀ ys ∈ outs, ys.length = n) ∧
      ∀ i < n, outs.map (·[i]?) = (laneRun (F c) (lanes i) (ops.flatMap (laneOps n heap i))).map some := by
  induction ops with
  | nil => intro _ _ st lanes _; exact ⟨st, [], rfl, by simp, fun i _ => by simp [laneRun]⟩
  | cons op ops ih =>
    intro hl hd st lanes h
    obtain ⟨st', out, e1, e2, e3, e4⟩ := step_sim hn hF tick c op ops (hl op (by simp)) hd st lanes h
    have hd' : (given ops).Nodup := by
      cases op <;> simp only [given, List.nodup_cons] at hd
      · exact hd.2
      all_goals exact hd
    obtain ⟨st'', outs, f1, f2, f3⟩ := ih (fun o ho => hl o (List.mem_cons_of_mem _ ho)) hd' st' _ e2
    refine ⟨st'', out.toList ++ outs, by simp only [run, e1, bind, Except.bind, f1]; rfl, ?_, ?_⟩
    · intro ys hys
      rcases List.mem_append.1 hys with h | h
      · exact e3 ys (by simpa using h)
      · exact f2 ys h
    · intro i hi
      rw [List.map_append, e4 i hi, f3 i hi, List.flatMap_cons, laneRun_append, List.map_append]

/-- **C105.** Whatever is done to a vectorised policy (all or some of the networks get parameters, are reset, with masks or indices, and the policy is called), every call succeeds, and row
`i` of the results is what the network of row `i` computes on its own, given only its parameters, its inputs and its resets. Restricted to networks which keep no state in their own
attributes, and to callers which do not give the same tensor object twice. -/
theorem C105_rows_partial {n : ℕ} (hn : 0 < n) (heap : ℕ → List P) {shape : Option (Tree Unit)} {F : Module I P X V Y} (hF : Good F shape) (tick : I → I) (c : I) (pid : ℕ) (rst : Bool)
    (ops : List (Op P X)) (hl : ∀ op ∈ Op.setAll pid rst :: ops, Legal n heap op) (hd : (given (Op.setAll pid rst :: ops)).Nodup) :
    ∃ st' outs, run F tick (⟨heap, none, none, c⟩ : St I P V) (Op.setAll pid rst :: ops) = .ok (st', outs) ∧ (∀ ys ∈ outs, ys.length = n) ∧
      ∀ i < n, outs.map (·[i]?) = (laneRun (F c) (none, none) ((Op.setAll pid rst :: ops).flatMap (laneOps n heap i))).map some := by
  have hq : (heap pid).length = n := hl (Op.setAll pid rst) (by simp)
  simp only [given, List.nodup_cons] at hd
  obtain ⟨st', outs, f1, f2, f3⟩ := run_sim hn hF tick c ops (fun o ho => hl o (List.mem_cons_of_mem _ ho)) hd.2 ⟨heap, some pid, none, c⟩ (fun i => ((heap pid)[i]?, none))
    ⟨fun _ _ => rfl, ⟨pid, rfl, hd.1, hq, fun i _ => rfl⟩, fun i _ => Or.inl ⟨rfl, rfl⟩⟩
  refine ⟨st', outs, ?_, f2, ?_⟩
  · have : step F tick (⟨heap, none, none, c⟩ : St I P V) (Op.setAll pid rst) = .ok (⟨heap, some pid, none, c⟩, none) := by cases rst <;> rfl
    simp only [run, this, bind, Except.bind, f1]; rfl
  · intro i hi
    rw [f3 i hi, List.flatMap_cons, laneRun_append]
    have hg : (heap pid)[i]? = some ((heap pid)[i]'(by omega)) := List.getElem?_eq_getElem (by omega)
    cases rst <;> simp [laneOps, hg, laneRun, laneStep]

omit [Zero V] in
theorem C105_untouched_aux [Zero V] (F : Module I P X V Y) (tick : I → I) (ops : List (Op P X)) (h : ∀ op ∈ ops, ∀ rows ix rst, op ≠ .setSome rows ix rst) :
    ∀ (st st' : St I P V) outs, run F tick st ops = .ok (st', outs) → st'.heap = st.heap := by
  induction ops with
  | nil => intro st st' outs hr; cases hr; rfl
  | cons op ops ih =>
    intro st st' outs hr
    simp only [run, bind, Except.bind] at hr
    split at hr
    · cases hr
    · rename_i r hs
      split at hr
      · cases hr
      · rename_i r' hrr
        cases hr
        have h1 := ih (fun o ho => h o (List.mem_cons_of_mem _ ho)) r.1 r'.1 r'.2 hrr
        rw [h1]
        cases op with
        | setAll pid rst => cases rst <;> simp [step, reset, Except.map] at hs <;> rw [← hs]
        | setSome rows ix rst => exact absurd rfl (h _ (by simp) rows ix rst)
        | reset ix =>
          cases ix with
          | none => simp [step, reset, Except.map] at hs; rw [← hs]
          | some ix =>
            simp only [step, reset] at hs
            cases hst : st.state with
            | none => rw [hst] at hs; simp [Except.map] at hs; rw [← hs]
            | some t =>
              rw [hst] at hs
              simp only [bind, Except.bind] at hs
              cases hx : ix.resolve st.size with
              | error e => rw [hx] at hs; cases hs
              | ok idx => rw [hx] at hs; cases hs; rfl
        | call xs =>
          simp only [step, call] at hs
          cases hp : st.params with
          | none => rw [hp] at hs; cases hs
          | some pid =>
            rw [hp] at hs
            simp only at hs
            split at hs
            · cases hs
            · split at hs
              · split at hs
                · cases hs; rfl
                · cases hs
              · split at hs
                · cases hs; rfl
                · cases hs

/-- **C105**, the tensors of the caller. As long as rows are not replaced with `indices`, the policy does not change the tensors it was given. -/
theorem C105_caller_partial (F : Module I P X V Y) (tick : I → I) (ops : List (Op P X)) (h : ∀ op ∈ ops, ∀ rows ix rst, op ≠ .setSome rows ix rst) (heap : ℕ → List P) (c : I)
    (st' : St I P V) (outs : List (List Y)) (hr : run F tick ⟨heap, none, none, c⟩ ops = .ok (st', outs)) : st'.heap = heap :=
  C105_untouched_aux F tick ops h _ st' outs hr

/-- **C105 violated.** Replacing rows with `indices` overwrites the tensor which the caller gave before. -/
theorem C105_violated_caller : ∃ st' outs, run (fun _ p x _ => (p * x, none) : Module Unit ℚ ℚ ℚ ℚ) id ⟨fun _ => [1, 2], none, none, ()⟩
    [.setAll 0 true, .setSome [7] (.ints [-1]) true] = .ok (st', outs) ∧ st'.heap 0 = [1, 7] := by
  refine ⟨_, _, rfl, ?_⟩
  decide +kernel

/-- **C105 violated.** A `LocomotorNet` keeps its time step in an attribute, which `Policy.reset` does not reset: after a reset, the same input gives another action. -/
theorem C105_violated_locomotor : ∃ st', run (V := ℚ) (locomotor (fun x : ℚ => x)) (· + 1) ⟨fun _ => [(2, [(1, 1, 0)])], none, none, 0⟩
    [.setAll 0 true, .call [5], .reset none, .call [5]] = .ok (st', [[10], [11]]) := by
  refine ⟨⟨fun _ => [(2, [(1, 1, 0)])], some 0, none, 2⟩, ?_⟩
  simp [run, step, call, reset, locomotor, Except.map, bind, Except.bind, pure, Except.pure]
  norm_num

/-- The `RNN` layer meets the hypotheses of `C105_rows_partial`. -/
theorem rnn_good {K : Type} [Field K] {n m : ℕ} (act : K → K) : Good (rnnModule (n := n) (m := m) act) (some (.tensor ())) :=
  ⟨fun _ _ _ _ => rfl, fun sh hsh _ _ _ => by cases hsh; rfl, fun _ _ _ _ _ => rfl⟩

/-- The `LSTM` layer meets the hypotheses of `C105_rows_partial`. -/
theorem lstm_good {K : Type} [Field K] {n m : ℕ} (sigm tanh : K → K) :
    Good (lstmModule (n := n) (m := m) sigm tanh) (some (.node none (.tensor ()) (.node none (.tensor ()) .nil))) :=
  ⟨fun _ _ _ _ => rfl, fun sh hsh _ _ _ => by cases hsh; rfl, fun _ _ _ _ _ => rfl⟩

/-! ### Non-vacuity -/

/-- A recurrent network which adds up its inputs, in a dictionary with one tensor. -/
def summing : Module Unit ℚ ℚ ℚ ℚ := fun _ p x s =>
  let h := match s with
    | some (.node (some 0) (.tensor h) .nil) => h
    | _ => 0
  (p * (h + x), some (.node (some 0) (.tensor (h + x)) .nil))

example : Good summing (some (.node (some 0) (.tensor ()) .nil)) :=
  ⟨fun _ _ _ _ => rfl, fun sh hsh _ _ _ => by cases hsh; rfl, fun _ _ _ _ _ => rfl⟩

/-- Row 0 is not reset, row 1 is. -/
example : (run summing id ⟨fun _ => [1, 10], none, none, ()⟩ [.setAll 0 true, .call [1, 1], .reset (some (.mask [false, true])), .call [1, 1]]).map (·.2) = .ok [[1, 10], [2, 10]] := by
  decide +kernel

example : Legal (P := ℚ) (X := ℚ) 2 (fun _ => [1, 10]) (.setSome [3] (.ints [-1]) true) := by
  refine ⟨?_, by simp [positions], rfl⟩
  intro z hz
  simp at hz
  subst hz
  decide

end EvoTorch.Policy
