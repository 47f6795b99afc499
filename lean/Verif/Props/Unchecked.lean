import Verif.Proofs.Unchecked
/-!
C159: structures with `verify=False`.
-/
namespace EvoTorch.Unchecked
open EvoTorch EvoTorch.CList
open EvoTorch.Spec.Deque (Op Out)
open EvoTorch.Spec.LenientDeque
open EvoTorch.Spec.Memory (Key)

variable {α : Type} {B d : Nat}

/-- No call of the history raised an error. -/
def NoError {β : Type} (results : List (Except PyErr β)) : Prop := ∀ x ∈ results, ∃ y, x = .ok y

/-- The integer keys given together with a default lie in `[-m, m)`. -/
def DefaultKeysWithin (m : Int) (op : CList.Call B α) : Prop := ∀ k dflt, op = .getDefault k dflt → ∀ i, -m ≤ k i ∧ k i < m

theorem listRun_same {L : Int} (hL : 1 ≤ L) (fb : α) (ops : List (CList.Call B α)) (hk : ∀ op ∈ ops, DefaultKeysWithin L op)
    (c : Batch B α) (hr : ∀ i, InRange L (c i)) (h : NoError (listRun true L fb c ops).1) : listRun false L fb c ops = listRun true L fb c ops := by
  induction ops generalizing c with
  | nil => rfl
  | cons op ops ih =>
    obtain ⟨y, hy⟩ := h _ List.mem_cons_self
    have he := exec_mod hL fb hr op (hk op List.mem_cons_self) hy
    simp only [listRun, he]
    rw [ih (fun o ho => hk o (List.mem_cons_of_mem _ ho)) _ (range_exec hL true fb hr op) (fun x hx => h x (List.mem_cons_of_mem _ hx))]

/-- A list made with `verify=False`, given any history of calls that a list made with `verify=True` (same capacity, batch size and contents of fresh memory) goes through without an error, returns the same values and
ends in the same state. The keys used together with a default lie in `[-cap, cap)`; for other keys see `C159_violated_default`. -/
theorem C159_list_same_partial (cap : Nat) (hcap : 1 ≤ cap) (fb : α) (junk : Fin B → Nat → α) (ops : List (CList.Call B α))
    (hk : ∀ op ∈ ops, DefaultKeysWithin cap op) (h : NoError (CList.run cap fb (CList.new B junk) ops)) :
    listRun false cap fb (CList.new B junk) ops = (CList.run cap fb (CList.new B junk) ops, CList.runState cap fb (CList.new B junk) ops) := by
  rw [← listRun_true] at *
  rw [listRun_same (by omega) fb ops hk]
  · intro i
    simp only [CList.new, InRange]; omega
  · rwa [listRun_true]

/-- A history of a batch of two lists with masks which is accepted. -/
example : NoError (CList.run 2 0 (CList.new 2 fun _ _ => (9 : Int))
    [.append (fun i => i.val + 1) (fun _ => true), .appendLeft (fun _ => 5) (fun i => i.val == 1), .get (fun i => -1 - i.val),
      .modify (fun _ => -1) (fun _ x => x + 1) (fun i => i.val == 0), .getDefault (fun _ => 1) (fun _ => 0), .pop (fun i => i.val == 1), .popLeft (fun i => i.val == 0)]) := by
  intro x hx
  simp only [CList.run, List.mem_cons, List.not_mem_nil, or_false] at hx
  rcases hx with h | h | h | h | h | h | h <;> exact ⟨_, h⟩

/-- A list made with `verify=False` never raises an error about a key or a length. In every history of calls, each of the lists in the batch behaves like the queue of `Spec.LenientDeque`. -/
theorem C159_list_lenient (cap : Nat) (hcap : 2 ≤ cap) (fb : α) (junk : Fin B → Nat → α) (ops : List (CList.Call B α)) :
    ∃ outs : List (Fin B → Out α), (listRun false cap fb (CList.new B junk) ops).1 = outs.map .ok
      ∧ ∀ i, Follows cap fb [] (ops.map fun op => (op.selects i, op.at i)) (outs.map fun f => f i) := by
  suffices ∀ (c : Batch B α) (l : Fin B → List α), (∀ i, Rep (cap : Int) (c i) (l i)) →
      ∃ outs : List (Fin B → Out α), (listRun false cap fb c ops).1 = outs.map .ok
        ∧ ∀ i, Follows cap fb (l i) (ops.map fun op => (op.selects i, op.at i)) (outs.map fun f => f i) from
    this _ (fun _ => []) fun i => rep_new _ ⟨rfl, rfl⟩
  induction ops with
  | nil => intro c l _; exact ⟨[], rfl, fun i => trivial⟩
  | cons op ops ih =>
    intro c l h
    obtain ⟨f, hf, hi⟩ := lenient_step (cap := cap) rfl (by omega) h fb op
    obtain ⟨outs, ho, hfol⟩ := ih (listExec false cap fb c op).state (fun i => if op.selects i then next cap (l i) (op.at i) else l i) (by
      intro i
      cases hs : op.selects i with
      | true => simpa using ((hi i).1 hs).2
      | false => simpa using (hi i).2 hs)
    refine ⟨f :: outs, ?_, fun i => ⟨fun hs => ((hi i).1 hs).1, hfol i⟩⟩
    simp only [listRun, hf, ho, List.map_cons]

/-- The queue of the specification: overfull, emptied too often, and with positions beyond its end. -/
example : Follows 2 (0 : Int) [] [(true, .append 1), (true, .append 2), (true, .append 3), (false, .append 4), (true, .length), (true, .get 4),
    (true, .set (-3) 8), (true, .popLeft), (true, .pop), (true, .pop), (true, .popLeft)]
    [.unit, .unit, .unit, .unit, .len 2, .val 1, .unit, .val 1, .val 8, .val 0, .val 0] := by
  simp [Follows, Returns, next, place]

/-- `get` with a default: with `verify=True` the position `2 * max_length` of a list with one element gives the default, with `verify=False` it gives the element. -/
theorem C159_violated_default :
    ∃ (ops : List (CList.Call 1 Int)),
      ((CList.run 3 0 (CList.new 1 fun _ _ => 9) ops).getLast?.map fun r => r.toOption.map fun f => f 0) = some (some (.val 5))
      ∧ ((listRun false 3 0 (CList.new 1 fun _ _ => 9) ops).1.getLast?.map fun r => r.toOption.map fun f => f 0) = some (some (.val 7))
      ∧ Spec.Deque.pyIndex 1 6 = none :=
  ⟨[.append (fun _ => 7) (fun _ => true), .getDefault (fun _ => 6) (fun _ => 5)], rfl, rfl, rfl⟩

/-! ### CMemory and CDict -/

theorem memModify_same (cfg : CMemory.Cfg d) (m : CMemory.Mem B d α) (key : Fin B → Key d) (w : Option (Fin B → Bool)) (g : Fin B → α → α) {u : Unit}
    (h : (memModify true cfg m key w g).result = .ok u) : memModify false cfg m key w g = memModify true cfg m key w g := by
  unfold memModify at h ⊢
  by_cases hb : CMemory.badKey cfg key (w.getD fun _ => true) = true
  · simp [hb] at h
  · simp [hb]

theorem memGet_same (cfg : CMemory.Cfg d) (m : CMemory.Mem B d α) (key : Fin B → Key d) {f : Fin B → α}
    (h : memGet true cfg m key = .ok f) : memGet false cfg m key = .ok f := by
  unfold memGet at h ⊢
  by_cases hb : CMemory.badKey cfg key (fun _ => true) = true
  · simp [hb] at h
  · simpa [hb] using h

/-- `verify=True` is the model of `Verif.Model.CMemory`. -/
theorem mem_true (cfg : CMemory.Cfg d) (m : CMemory.Mem B d α) (key : Fin B → Key d) (w : Option (Fin B → Bool)) (g : Fin B → α → α) :
    memGet true cfg m key = CMemory.get cfg m key ∧ memModify true cfg m key w g = CMemory.modify cfg m key w g := ⟨rfl, rfl⟩

/-- A memory with `verify=False`: a history which raises no error with `verify=True` reads the same values and ends with the same contents. -/
theorem C159_memory_same (cfg : CMemory.Cfg d) (ops : List (MemCall B d α)) (m : CMemory.Mem B d α) (h : NoError (memRun true cfg m ops).1) :
    memRun false cfg m ops = memRun true cfg m ops := by
  induction ops generalizing m with
  | nil => rfl
  | cons op ops ih =>
    cases op with
    | get key =>
      obtain ⟨y, hy⟩ := h _ List.mem_cons_self
      obtain ⟨f, hf⟩ := map_ok' hy
      simp only [memRun, memGet_same cfg m key hf, hf]
      rw [ih m fun x hx => h x (List.mem_cons_of_mem _ hx)]
    | modify key w g =>
      obtain ⟨y, hy⟩ := h _ List.mem_cons_self
      obtain ⟨f, hf⟩ := map_ok' hy
      simp only [memRun, memModify_same cfg m key w g hf]
      rw [ih _ fun x hx => h x (List.mem_cons_of_mem _ hx)]

theorem torchIndex_mod {n : Nat} {u : Int} (h : -(n : Int) ≤ u ∧ u < n) : CMemory.torchIndex n u = some (u % n).toNat := by
  unfold CMemory.torchIndex
  by_cases h1 : 0 ≤ u
  · rw [if_pos ⟨h1, h.2⟩, emod_small h1 h.2]
  · rw [if_neg (by omega), if_pos (by omega), emod_neg h.1 (by omega)]

theorem torchIndex_none {n : Nat} {u : Int} (h : ¬ (-(n : Int) ≤ u ∧ u < n)) : CMemory.torchIndex n u = none := by
  unfold CMemory.torchIndex
  rw [if_neg (by omega), if_neg (by omega)]

/-- With `verify=False` a key below the first one counts from the last key, once around; a key further out raises an `IndexError`. -/
theorem C159_memory_wraps (cfg : CMemory.Cfg d) (m : CMemory.Mem B d α) (key : Fin B → Key d) :
    ((∀ i j, -(cfg.numKeys j : Int) ≤ key i j - cfg.offset j ∧ key i j - cfg.offset j < cfg.numKeys j) →
      memGet false cfg m key = .ok fun i => m i fun j => ((key i j - cfg.offset j) % cfg.numKeys j).toNat)
    ∧ ((¬ ∀ i j, -(cfg.numKeys j : Int) ≤ key i j - cfg.offset j ∧ key i j - cfg.offset j < cfg.numKeys j) →
      memGet false cfg m key = .error .indexError
      ∧ ∀ w g, memModify false cfg m key w g = ⟨m, .error .indexError⟩) := by
  constructor
  · intro h
    have hb : CMemory.badAddress cfg key = false := by
      rw [Bool.eq_false_iff]
      simp only [CMemory.badAddress, ne_eq, List.any_eq_true, List.mem_finRange, true_and, not_exists]
      intro i j
      rw [torchIndex_mod (h i j)]; simp
    simp only [memGet, hb, Bool.false_and, Bool.false_eq_true, if_false]
    congr 1
    funext i
    congr 1
    funext j
    rw [CMemory.address, torchIndex_mod (h i j)]; rfl
  · intro h
    have hb : CMemory.badAddress cfg key = true := by
      simp only [not_forall] at h
      obtain ⟨i, j, hij⟩ := h
      simp only [CMemory.badAddress, List.any_eq_true, List.mem_finRange, true_and]
      exact ⟨i, j, by rw [torchIndex_none hij]; rfl⟩
    exact ⟨by simp [memGet, hb], fun w g => by simp [memModify, hb]⟩

/-- Keys 10, 11, 12: without verification the key 9 is the key 12; with it there is a `KeyError`. -/
example : memGet false (B := 1) (d := 1) ⟨fun _ => 3, fun _ => 10⟩ (fun _ a => a 0) (fun _ _ => 9) = .ok (fun _ => 2)
    ∧ memGet true (B := 1) (d := 1) ⟨fun _ => 3, fun _ => 10⟩ (fun _ a => a 0) (fun _ _ => 9) = .error .keyError := ⟨rfl, rfl⟩

/-- `verify=True` is the model of `Verif.Model.CDict`: every call leaves the same state and gives the same result. -/
theorem dict_true (cfg : CMemory.Cfg d) (c : CDict.Dict B d α) (key : Fin B → Key d) (v : Fin B → α) (w : Option (Fin B → Bool)) (g : Fin B → α → α) :
    ((dictExec true cfg c (.set key v w)).state = (CDict.exec cfg c (.set key v w)).state ∧ (dictExec true cfg c (.set key v w)).result = (CDict.exec cfg c (.set key v w)).result.map fun _ => .nothing)
    ∧ dictExec true cfg c (.get key) = ⟨c, (CDict.get cfg c key).map .values⟩
    ∧ dictExec true cfg c (.getDefault key v) = ⟨c, (CDict.getDefault cfg c key v).map .values⟩
    ∧ dictExec true cfg c (.contains key) = ⟨c, (CDict.contains cfg c key).map .flags⟩
    ∧ dictExec true cfg c (.modify key w g) = ⟨(CDict.exec cfg c (.modify key g w)).state, (CDict.exec cfg c (.modify key g w)).result.map fun _ => .nothing⟩
    ∧ dictExec true cfg c .clear = ⟨(CDict.exec cfg c .clear).state, (CDict.exec cfg c .clear).result.map fun _ => .nothing⟩ := by
  refine ⟨?_, rfl, congrArg (Outcome.mk c) ?_, rfl, rfl, rfl⟩
  · have hset : ∀ {β : Type} (m : CMemory.Mem B d β) (x : Fin B → β), CMemory.set cfg m key x w = memModify true cfg m key w (setValue x w) := by
      intro β m x; cases w <;> rfl
    simp only [dictExec, CDict.exec, hset]
    cases (memModify true cfg c.data key w (setValue v w)).result <;> exact ⟨rfl, rfl⟩
  · show (do
        let exist ← CMemory.get cfg c.exist key
        let data ← CMemory.get cfg c.data key
        return DictOut.values fun i => CMemory.doWhere (exist i) (data i) (v i)) = _
    unfold CDict.getDefault
    cases CMemory.get cfg c.exist key with
    | error e => rfl
    | ok x => cases CMemory.get cfg c.data key <;> rfl

theorem dictExec_same (cfg : CMemory.Cfg d) (c : CDict.Dict B d α) (op : DictCall B d α) {y : DictOut B α}
    (h : (dictExec true cfg c op).result = .ok y) : dictExec false cfg c op = dictExec true cfg c op := by
  cases op with
  | get key =>
    obtain ⟨f, hf⟩ := map_ok' h
    simp only [dictExec, memGet_same cfg _ key hf, hf]
  | contains key =>
    obtain ⟨f, hf⟩ := map_ok' h
    simp only [dictExec, memGet_same cfg _ key hf, hf]
  | getDefault key dflt =>
    simp only [dictExec] at h ⊢
    cases h1 : memGet true cfg c.exist key with
    | error e => rw [h1] at h; simp [bind, Except.bind] at h
    | ok x =>
      cases h2 : memGet true cfg c.data key with
      | error e => rw [h1, h2] at h; simp [bind, Except.bind] at h
      | ok z => rw [memGet_same cfg _ key h1, memGet_same cfg _ key h2]
  | set key v w =>
    simp only [dictExec] at h ⊢
    cases h1 : (memModify true cfg c.data key w (setValue v w)).result with
    | error e => rw [h1] at h; simp at h
    | ok u =>
      rw [memModify_same cfg _ key w _ h1]
      simp only [h1] at h ⊢
      obtain ⟨u', h2⟩ := map_ok' h
      rw [memModify_same cfg _ key w _ h2]
  | modify key w g =>
    simp only [dictExec] at h ⊢
    obtain ⟨u, h1⟩ := map_ok' h
    rw [memModify_same cfg _ key w _ h1]
  | clear => rfl

/-- A dictionary with `verify=False`: a history which raises no error with `verify=True` returns the same values and ends in the same state. -/
theorem C159_dict_same (cfg : CMemory.Cfg d) (ops : List (DictCall B d α)) (c : CDict.Dict B d α) (h : NoError (dictRun true cfg c ops).1) :
    dictRun false cfg c ops = dictRun true cfg c ops := by
  induction ops generalizing c with
  | nil => rfl
  | cons op ops ih =>
    obtain ⟨y, hy⟩ := h _ List.mem_cons_self
    simp only [dictRun, dictExec_same cfg c op hy]
    rw [ih _ fun x hx => h x (List.mem_cons_of_mem _ hx)]

/-- A dictionary history which is accepted. -/
example : NoError (dictRun true (B := 2) (d := 1) ⟨fun _ => 3, fun _ => 10⟩ ⟨fun _ _ => (0 : Int), fun _ _ => false⟩
    [.set (fun _ _ => 12) (fun i => i.val) none, .modify (fun _ _ => 12) (some fun i => i.val == 1) (fun _ x => x + 1),
      .getDefault (fun i _ => 11 + i.val) (fun _ => 5), .contains (fun _ _ => 10), .clear]).1 := by
  intro x hx
  simp only [dictRun, List.mem_cons, List.not_mem_nil, or_false] at hx
  rcases hx with h | h | h | h | h <;> exact ⟨_, h⟩

/-! ### CBag -/

/-- `verify=True` is the model of `Verif.Model.CBag`. -/
theorem bagExec_true (cfg : CBag.Cfg) (noise : Fin B → Nat → Int) (b : CBag.Bag B) (op : Spec.Bag.Call B) :
    bagExec true cfg noise b op = CBag.exec cfg noise b op := by
  cases op <;> rfl

theorem bagExec_same (cfg : CBag.Cfg) (hcap : 1 ≤ cfg.maxLength) (noise : Fin B → Nat → Int) (b : CBag.Bag B) (hr : ∀ i, InRange cfg.maxLength (b.list i)) (op : Spec.Bag.Call B)
    {y : Fin B → Int} (h : (bagExec true cfg noise b op).result = .ok y) :
    bagExec false cfg noise b op = bagExec true cfg noise b op ∧ ∀ i, InRange cfg.maxLength ((bagExec true cfg noise b op).state.list i) := by
  have hL : (1 : Int) ≤ cfg.maxLength := by omega
  cases op with
  | push v w =>
    simp only [bagExec] at h ⊢
    by_cases hs : b.sampling = true
    · simp [hs] at h
    · simp only [hs, Bool.false_eq_true, if_false] at h ⊢
      obtain ⟨u, hu⟩ := map_ok' h
      have he := exec_mod hL (0 : Int) hr (.append v w) (fun _ _ hh => by cases hh) (y := fun _ => .unit) (by simp [listExec, hu, Except.map])
      have he' : listAppend false cfg.maxLength b.list v w = listAppend true cfg.maxLength b.list v w := by
        have h1 := congrArg Outcome.state he
        have h2 := congrArg Outcome.result he
        simp only [listExec, hu] at h1 h2
        obtain ⟨u', hu'⟩ := map_ok' (h2.trans rfl : _ = Except.ok _)
        have : ∀ o o' : Outcome (Batch B Int) Unit, o.state = o'.state → o.result = o'.result → o = o' := by
          rintro ⟨_, _⟩ ⟨_, _⟩ h h'; simp_all
        exact this _ _ h1 (by rw [hu, hu'])
      rw [he']
      exact ⟨rfl, fun i => range_exec hL true (0 : Int) hr (.append v w) i⟩
  | pop w =>
    simp only [bagExec] at h ⊢
    have hr' : ∀ i, InRange cfg.maxLength ((if b.sampling = true then b else ⟨fun i => CBag.shuffleRow cfg (noise i) (b.list i), true⟩ : CBag.Bag B).list i) := by
      intro i; split
      · exact hr i
      · exact hr i
    generalize (if b.sampling = true then b else ⟨fun i => CBag.shuffleRow cfg (noise i) (b.list i), true⟩ : CBag.Bag B) = b1 at h hr' ⊢
    have he : listPop false cfg.maxLength 0 b1.list w = listPop true cfg.maxLength 0 b1.list w := by
      unfold listPop at h ⊢
      by_cases hf : anyB (fun i => isEmpty (b1.list i) && w i) = true
      · simp [hf] at h
      · simp only [hf, Bool.true_and, Bool.false_and, Bool.false_eq_true, if_false]
        rw [getDefault_mod hL hr' (fun _ => by omega)]
    rw [he]
    exact ⟨rfl, fun i => range_exec hL true (0 : Int) hr' (.pop w) i⟩
  | length => exact ⟨rfl, hr⟩
  | clear => exact ⟨rfl, fun i => by simp only [bagExec, CList.clear, InRange]; omega⟩

/-- A bag with `verify=False`: with the same random numbers, a history which raises no error with `verify=True` returns the same values and ends in the same state. -/
theorem C159_bag_same (cfg : CBag.Cfg) (hcap : 1 ≤ cfg.maxLength) (ops : List (Spec.Bag.Call B × (Fin B → Nat → Int)))
    (h : NoError (bagRun true cfg (CBag.new cfg B) ops).1) : bagRun false cfg (CBag.new cfg B) ops = bagRun true cfg (CBag.new cfg B) ops := by
  suffices ∀ b : CBag.Bag B, (∀ i, InRange cfg.maxLength (b.list i)) → NoError (bagRun true cfg b ops).1 → bagRun false cfg b ops = bagRun true cfg b ops from
    this _ (fun i => by simp only [CBag.new, CList.new, InRange]; omega) h
  clear h
  induction ops with
  | nil => intro b _ _; rfl
  | cons p ops ih =>
    obtain ⟨op, noise⟩ := p
    intro b hr h
    obtain ⟨y, hy⟩ := h _ List.mem_cons_self
    obtain ⟨he, hr'⟩ := bagExec_same cfg hcap noise b hr op hy
    simp only [bagRun, he]
    rw [ih _ hr' fun x hx => h x (List.mem_cons_of_mem _ hx)]

/-- A bag history which is accepted. -/
example : NoError (bagRun true ⟨3, 0, 3, 64⟩ (CBag.new ⟨3, 0, 3, 64⟩ 1)
    [(.push (fun _ => 2) (fun _ => true), fun _ _ => 0), (.push (fun _ => 1) (fun _ => true), fun _ _ => 0), (.length, fun _ _ => 0),
      (.pop (fun _ => true), fun _ j => j), (.pop (fun _ => true), fun _ j => j)]).1 := by
  intro x hx
  simp only [bagRun, List.mem_cons, List.not_mem_nil, or_false] at hx
  rcases hx with h | h | h | h | h <;> exact ⟨_, h⟩

end EvoTorch.Unchecked
