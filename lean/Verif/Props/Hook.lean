import Verif.Model.Hook
import Mathlib.Tactic.Common
/-!
C38: hooks call their functions in order and accumulate the results.
-/
namespace EvoTorch.Hook
variable {W K V : Type} [DecidableEq K]

/-! ### Dictionaries -/

theorem dictGet_set (d : Dict K V) (k k' : K) (v : V) : dictGet (dictSet d k v) k' = if k = k' then some v else dictGet d k' := by
  induction d with
  | nil => simp only [dictSet, dictGet, List.find?_cons, List.find?_nil]; by_cases h : k = k' <;> simp [h]
  | cons kv d ih =>
    obtain ⟨a, b⟩ := kv
    simp only [dictSet]
    by_cases h : a = k
    · subst h
      by_cases h' : a = k' <;> simp [dictGet, List.find?_cons, h']
    · simp only [h, if_false]
      unfold dictGet at ih ⊢
      by_cases h' : a = k'
      · subst h'; simp [List.find?_cons, Ne.symm h]
      · simp only [List.find?_cons, h', decide_false]; exact ih

theorem dictGet_update (d e : Dict K V) (k : K) :
    dictGet (dictUpdate d e) k = (dictGet e.reverse k).or (dictGet d k) := by
  induction e generalizing d with
  | nil => simp [dictUpdate, dictGet]
  | cons kv e ih =>
    have h1 : dictUpdate d (kv :: e) = dictUpdate (dictSet d kv.1 kv.2) e := rfl
    rw [h1, ih, dictGet_set, List.reverse_cons]
    unfold dictGet
    rw [List.find?_append]
    cases hf : e.reverse.find? (fun x => decide (x.1 = k)) with
    | some x => simp
    | none =>
      by_cases h : kv.1 = k
      · simp [h]
      · simp [h]

/-! ### Specification: calling the functions one after the other -/

/-- What the functions return when they are called in order with these arguments, the state being passed on, until one raises. -/
def sequential (args : List V) (kwargs : Dict K V) : List (Fn W K V) → W → W × List (Ret K V) × Option PyErr
  | [], w => (w, [], none)
  | f :: fs, w =>
    match f args kwargs w with
    | (w', .error e) => (w', [], some e)
    | (w', .ok r) => let t := sequential args kwargs fs w'
      (t.1, r :: t.2.1, t.2.2)

/-- Merging: the value of a key is the last one given. -/
def lastValue (k : K) : List (Ret K V) → Option V
  | [] => none
  | .mapping d :: rs => (lastValue k rs).or (dictGet d.reverse k)
  | _ :: rs => lastValue k rs

/-- Concatenation of the lists. -/
def allItems : List (Ret K V) → List V
  | [] => []
  | .iterable l :: rs => l ++ allItems rs
  | _ :: rs => allItems rs

def IsMapping : Ret K V → Prop
  | .mapping _ => True
  | _ => False

def IsIterable : Ret K V → Prop
  | .iterable _ => True
  | _ => False

def IsNone : Ret K V → Prop
  | .none => True
  | _ => False

/-- A dictionary has at most one entry per key. -/
def KeysNodup (d : Dict K V) : Prop := (d.map (·.1)).Nodup

/-- Dictionaries that are returned have distinct keys (as Python's do). -/
def RetOk : Ret K V → Prop
  | .mapping d => KeysNodup d
  | _ => True

theorem dictGet_reverse (d : Dict K V) (h : KeysNodup d) (k : K) : dictGet d.reverse k = dictGet d k := by
  induction d with
  | nil => rfl
  | cons kv d ih =>
    have hn : kv.1 ∉ d.map (·.1) ∧ KeysNodup d := by simpa [KeysNodup] using h
    have ih' := ih hn.2
    unfold dictGet at ih' ⊢
    rw [List.reverse_cons, List.find?_append, List.find?_cons]
    by_cases e : kv.1 = k
    · have : d.reverse.find? (fun x => decide (x.1 = k)) = none := by
        rw [List.find?_eq_none]
        intro x hx hxk
        simp only [decide_eq_true_eq] at hxk
        exact hn.1 (List.mem_map.mpr ⟨x, List.mem_reverse.mp hx, by rw [hxk, e]⟩)
      simp [this, e]
    · have h1 : (kv :: d).find? (fun x => decide (x.1 = k)) = d.find? (fun x => decide (x.1 = k)) := by simp [List.find?_cons, e]
      rw [h1, ← ih']
      simp [e]

/-- What the accumulation makes of a list of results. -/
def accAll : Acc K V → List (Ret K V) → Except PyErr (Acc K V)
  | acc, [] => .ok acc
  | acc, r :: rs => match accumulate acc r with
    | .error e => .error e
    | .ok acc' => accAll acc' rs

/-- If nothing raises and the results are compatible, the hook is the sequential execution. -/
theorem loop_eq (args : List V) (kwargs : Dict K V) (fs : List (Fn W K V)) (i : Nat) (acc acc' : Acc K V) (s : St W K V)
    (hseq : (sequential args kwargs fs s.world).2.2 = none) (hacc : accAll acc (sequential args kwargs fs s.world).2.1 = .ok acc') :
    loop args kwargs fs i acc s =
      (⟨(sequential args kwargs fs s.world).1, s.calls ++ (List.range fs.length).map fun j => ⟨i + j, args, kwargs⟩⟩, .ok acc') := by
  induction fs generalizing i acc s with
  | nil =>
    simp only [sequential, accAll, Except.ok.injEq] at hacc
    subst hacc
    simp [loop, sequential]
  | cons f fs ih =>
    rw [loop]
    rw [sequential] at hseq hacc
    rw [sequential]
    cases hf : f args kwargs s.world with
    | mk w' res =>
      rw [hf] at hseq hacc
      cases res with
      | error e => simp at hseq
      | ok r =>
        simp only at hseq hacc ⊢
        rw [accAll] at hacc
        cases ha : accumulate acc r with
        | error e => rw [ha] at hacc; cases hacc
        | ok acc1 =>
          rw [ha] at hacc
          simp only at hacc ⊢
          rw [ih (i + 1) acc1 { world := w', calls := s.calls ++ [{ index := i, args := args, kwargs := kwargs }] } hseq hacc]
          simp [List.range_succ_eq_map, Function.comp_def, Nat.add_assoc, Nat.add_comm 1]

theorem accAll_none (rs : List (Ret K V)) (h : ∀ r ∈ rs, IsNone r) (acc : Acc K V) : accAll acc rs = .ok acc := by
  induction rs with
  | nil => rfl
  | cons r rs ih =>
    have hr := h r (by simp)
    cases r <;> simp only [IsNone] at hr
    simp only [accAll, accumulate]
    exact ih fun x hx => h x (List.mem_cons_of_mem _ hx)

theorem accAll_dict (rs : List (Ret K V)) (h : ∀ r ∈ rs, IsNone r ∨ IsMapping r) (e : Dict K V) :
    ∃ d, accAll (.dict e) rs = .ok (.dict d) ∧ ∀ k, dictGet d k = (lastValue k rs).or (dictGet e k) := by
  induction rs generalizing e with
  | nil => exact ⟨e, rfl, fun k => by simp [lastValue]⟩
  | cons r rs ih =>
    have hr := h r (by simp)
    have ht : ∀ r ∈ rs, IsNone r ∨ IsMapping r := fun x hx => h x (List.mem_cons_of_mem _ hx)
    cases r with
    | none => simpa [accAll, accumulate, lastValue] using ih ht e
    | mapping d =>
      obtain ⟨d', h1, h2⟩ := ih ht (dictUpdate e d)
      refine ⟨d', by simpa [accAll, accumulate] using h1, fun k => ?_⟩
      rw [h2, dictGet_update, lastValue, Option.or_assoc]
    | iterable l => simp [IsNone, IsMapping] at hr
    | other => simp [IsNone, IsMapping] at hr

theorem accAll_list (rs : List (Ret K V)) (h : ∀ r ∈ rs, IsNone r ∨ IsIterable r) (l : List V) : accAll (.list l) rs = .ok (.list (l ++ allItems rs)) := by
  induction rs generalizing l with
  | nil => simp [accAll, allItems]
  | cons r rs ih =>
    have hr := h r (by simp)
    have ht : ∀ r ∈ rs, IsNone r ∨ IsIterable r := fun x hx => h x (List.mem_cons_of_mem _ hx)
    cases r with
    | none => simpa [accAll, accumulate, allItems] using ih ht l
    | iterable m => simp [accAll, accumulate, allItems, ih ht]
    | mapping d => simp [IsNone, IsIterable] at hr
    | other => simp [IsNone, IsIterable] at hr

/-- The calls a hook makes: each function once, in order, with the stored arguments followed by the given ones. -/
def expectedCalls (h : Hook W K V) (args : List V) (kwargs : Dict K V) (n : Nat) : List (Call K V) :=
  (List.range n).map fun j => ⟨j, h.args ++ args, dictUpdate h.kwargs kwargs⟩

/-- C38, order and arguments: whatever the functions do, the calls made are those of the first functions in order (`n` of them), each once, with the stored positional
arguments followed by the given ones; all functions are called unless one raises or results cannot be accumulated. A keyword argument has the given value if
one is given, else the stored one. -/
theorem C38_calls (h : Hook W K V) (args : List V) (kwargs : Dict K V) (w : W) :
    ∃ n, n ≤ h.funcs.length ∧ (call h args kwargs w).1.calls = expectedCalls h args kwargs n ∧
      (∀ acc, (call h args kwargs w).2 = .ok acc → n = h.funcs.length) ∧
      (KeysNodup kwargs → ∀ k, dictGet (dictUpdate h.kwargs kwargs) k = (dictGet kwargs k).or (dictGet h.kwargs k)) := by
  have gen : ∀ (fs : List (Fn W K V)) (i : Nat) (acc : Acc K V) (s : St W K V), ∃ n, n ≤ fs.length ∧
      (loop (h.args ++ args) (dictUpdate h.kwargs kwargs) fs i acc s).1.calls =
        s.calls ++ (List.range n).map (fun j => ⟨i + j, h.args ++ args, dictUpdate h.kwargs kwargs⟩) ∧
      (∀ acc', (loop (h.args ++ args) (dictUpdate h.kwargs kwargs) fs i acc s).2 = .ok acc' → n = fs.length) := by
    intro fs
    induction fs with
    | nil => intro i acc s; exact ⟨0, Nat.le_refl _, by simp [loop], fun _ _ => rfl⟩
    | cons f fs ih =>
      intro i acc s
      rw [loop]
      cases hf : f (h.args ++ args) (dictUpdate h.kwargs kwargs) s.world with
      | mk w' res =>
        cases res with
        | error e => exact ⟨1, by simp, by simp, by simp⟩
        | ok r =>
          simp only
          cases ha : accumulate acc r with
          | error e => exact ⟨1, by simp, by simp, by simp⟩
          | ok acc1 =>
            obtain ⟨n, hn, hc, hr⟩ := ih (i + 1) acc1 ⟨w', s.calls ++ [⟨i, h.args ++ args, dictUpdate h.kwargs kwargs⟩]⟩
            refine ⟨n + 1, by simp; omega, ?_, fun acc' h' => by simp [hr acc' h']⟩
            simp only [hc]
            simp [List.range_succ_eq_map, Function.comp_def, Nat.add_assoc, Nat.add_comm 1]
  obtain ⟨n, hn, hc, hr⟩ := gen h.funcs 0 .none ⟨w, []⟩
  refine ⟨n, hn, ?_, hr, fun hk k => by rw [dictGet_update, dictGet_reverse _ hk]⟩
  simpa [call, expectedCalls] using hc

/-- C38, dictionaries: if no function raises and every result is None or a dictionary, at least one being a dictionary, the hook returns a dictionary in which
every key has the value given by the last function that gives it. -/
theorem C38_dicts (h : Hook W K V) (args : List V) (kwargs : Dict K V) (w : W) (rs : List (Ret K V)) (w' : W)
    (hseq : sequential (h.args ++ args) (dictUpdate h.kwargs kwargs) h.funcs w = (w', rs, none)) (hall : ∀ r ∈ rs, IsNone r ∨ IsMapping r)
    (hok : ∀ r ∈ rs, RetOk r) (hex : ∃ r ∈ rs, IsMapping r) :
    (call h args kwargs w).1.world = w' ∧ ∃ d, (call h args kwargs w).2 = .ok (.dict d) ∧ ∀ k, dictGet d k = lastValue k rs := by
  have key : ∃ d, accAll .none rs = .ok (.dict d) ∧ ∀ k, dictGet d k = lastValue k rs := by
    clear hseq
    induction rs with
    | nil => obtain ⟨r, hr, _⟩ := hex; cases hr
    | cons r rs ih =>
      have ht : ∀ r ∈ rs, IsNone r ∨ IsMapping r := fun x hx => hall x (List.mem_cons_of_mem _ hx)
      have hr := hall r (by simp)
      have hko := hok r (by simp)
      cases r with
      | none =>
        obtain ⟨d, h1, h2⟩ := ih ht (fun x hx => hok x (List.mem_cons_of_mem _ hx)) (by
          obtain ⟨x, hx, hm⟩ := hex
          rcases List.mem_cons.mp hx with rfl | hx
          · cases hm
          · exact ⟨x, hx, hm⟩)
        exact ⟨d, by simpa [accAll, accumulate] using h1, fun k => by rw [h2, lastValue] <;> simp⟩
      | mapping d =>
        obtain ⟨d', h1, h2⟩ := accAll_dict rs ht d
        exact ⟨d', by simpa [accAll, accumulate] using h1, fun k => by rw [h2, lastValue, dictGet_reverse d hko]⟩
      | iterable l => simp [IsNone, IsMapping] at hr
      | other => simp [IsNone, IsMapping] at hr
  obtain ⟨d, h1, h2⟩ := key
  have := loop_eq (h.args ++ args) (dictUpdate h.kwargs kwargs) h.funcs 0 .none (.dict d) ⟨w, []⟩ (by rw [hseq]) (by rw [hseq]; exact h1)
  rw [hseq] at this
  exact ⟨by rw [call, this], d, by rw [call, this], h2⟩

/-- C38, lists: if no function raises and every result is None or a list, at least one being a list, the hook returns the concatenation of the lists in order;
if every result is None, it returns None. -/
theorem C38_lists (h : Hook W K V) (args : List V) (kwargs : Dict K V) (w : W) (rs : List (Ret K V)) (w' : W)
    (hseq : sequential (h.args ++ args) (dictUpdate h.kwargs kwargs) h.funcs w = (w', rs, none)) (hall : ∀ r ∈ rs, IsNone r ∨ IsIterable r) :
    (call h args kwargs w).1.world = w' ∧
    ((∃ r ∈ rs, IsIterable r) → (call h args kwargs w).2 = .ok (.list (allItems rs))) ∧
    ((∀ r ∈ rs, IsNone r) → (call h args kwargs w).2 = .ok .none) := by
  have key : ((∃ r ∈ rs, IsIterable r) ∧ accAll .none rs = .ok (.list (allItems rs))) ∨ ((∀ r ∈ rs, IsNone r) ∧ accAll .none rs = .ok .none) := by
    clear hseq
    induction rs with
    | nil => right; exact ⟨by simp, rfl⟩
    | cons r rs ih =>
      have ht : ∀ r ∈ rs, IsNone r ∨ IsIterable r := fun x hx => hall x (List.mem_cons_of_mem _ hx)
      have hr := hall r (by simp)
      cases r with
      | none =>
        rcases ih ht with ⟨⟨x, hx, hi⟩, h2⟩ | ⟨h1, h2⟩
        · left; exact ⟨⟨x, List.mem_cons_of_mem _ hx, hi⟩, by simpa [accAll, accumulate, allItems] using h2⟩
        · right
          refine ⟨fun x hx => ?_, by simpa [accAll, accumulate] using h2⟩
          rcases List.mem_cons.mp hx with rfl | hx
          · trivial
          · exact h1 x hx
      | iterable l =>
        left
        refine ⟨⟨.iterable l, by simp, trivial⟩, ?_⟩
        simp [accAll, accumulate, allItems, accAll_list rs ht]
      | mapping d => simp [IsNone, IsIterable] at hr
      | other => simp [IsNone, IsIterable] at hr
  have run : ∀ acc, accAll .none rs = .ok acc → call h args kwargs w =
      (⟨w', (List.range h.funcs.length).map fun j => ⟨0 + j, h.args ++ args, dictUpdate h.kwargs kwargs⟩⟩, .ok acc) := by
    intro acc hacc
    have := loop_eq (h.args ++ args) (dictUpdate h.kwargs kwargs) h.funcs 0 .none acc ⟨w, []⟩ (by rw [hseq]) (by rw [hseq]; exact hacc)
    rw [hseq] at this
    rw [call, this]; simp
  rcases key with ⟨⟨x, hx, hi⟩, h2⟩ | ⟨h1, h2⟩
  · refine ⟨by rw [run _ h2], fun _ => by rw [run _ h2], fun hn => ?_⟩
    have := hn x hx
    cases x <;> simp [IsNone, IsIterable] at this hi
  · refine ⟨by rw [run _ h2], fun ⟨x, hx, hi⟩ => ?_, fun _ => by rw [run _ h2]⟩
    have := h1 x hx
    cases x <;> simp [IsNone, IsIterable] at this hi

/-- C38, mixing: if no function raises and both a dictionary and a list are among the results, or a result is neither None, a dictionary nor a list, the
call raises TypeError. -/
theorem C38_mixing (h : Hook W K V) (args : List V) (kwargs : Dict K V) (w : W) (rs : List (Ret K V)) (w' : W)
    (hseq : sequential (h.args ++ args) (dictUpdate h.kwargs kwargs) h.funcs w = (w', rs, none))
    (hmix : ((∃ r ∈ rs, IsMapping r) ∧ (∃ r ∈ rs, IsIterable r)) ∨ Ret.other ∈ rs) : (call h args kwargs w).2 = .error .typeError := by
  have key : ∀ (rs : List (Ret K V)) (acc : Acc K V),
      (((∃ d, acc = .dict d) ∨ ∃ r ∈ rs, IsMapping r) ∧ ((∃ l, acc = .list l) ∨ ∃ r ∈ rs, IsIterable r)) ∨ Ret.other ∈ rs →
      accAll acc rs = .error .typeError := by
    intro rs
    induction rs with
    | nil =>
      rintro acc (⟨h1 | ⟨r, hr, _⟩, h2 | ⟨r', hr', _⟩⟩ | h)
      · obtain ⟨d, rfl⟩ := h1; obtain ⟨l, h2⟩ := h2; cases h2
      all_goals simp_all
    | cons r rs ih =>
      intro acc hm
      rw [accAll]
      cases r with
      | none =>
        simp only [accumulate]
        refine ih acc ?_
        simpa [IsMapping, IsIterable] using hm
      | mapping d =>
        cases acc with
        | none =>
          simp only [accumulate]
          refine ih _ ?_
          rcases hm with ⟨_, h2⟩ | h
          · left; refine ⟨Or.inl ⟨d, rfl⟩, ?_⟩; simpa [IsIterable] using h2
          · right; simpa using h
        | dict e =>
          simp only [accumulate]
          refine ih _ ?_
          rcases hm with ⟨_, h2⟩ | h
          · left; refine ⟨Or.inl ⟨_, rfl⟩, ?_⟩; simpa [IsIterable] using h2
          · right; simpa using h
        | list l => simp only [accumulate]
      | iterable m =>
        cases acc with
        | none =>
          simp only [accumulate]
          refine ih _ ?_
          rcases hm with ⟨h2, _⟩ | h
          · left; refine ⟨?_, Or.inl ⟨m, rfl⟩⟩; simpa [IsMapping] using h2
          · right; simpa using h
        | list e =>
          simp only [accumulate]
          refine ih _ ?_
          rcases hm with ⟨h2, _⟩ | h
          · left; refine ⟨?_, Or.inl ⟨_, rfl⟩⟩; simpa [IsMapping] using h2
          · right; simpa using h
        | dict d => simp only [accumulate]
      | other => cases acc <;> simp only [accumulate]
  have run : ∀ (fs : List (Fn W K V)) (i : Nat) (acc : Acc K V) (s : St W K V) (rs : List (Ret K V)) (w' : W),
      sequential (h.args ++ args) (dictUpdate h.kwargs kwargs) fs s.world = (w', rs, none) → ∀ e, accAll acc rs = .error e →
      (loop (h.args ++ args) (dictUpdate h.kwargs kwargs) fs i acc s).2 = .error e := by
    intro fs
    induction fs with
    | nil => intro i acc s rs w' hs e he; simp only [sequential, Prod.mk.injEq] at hs; obtain ⟨_, rfl, _⟩ := hs; cases he
    | cons f fs ih =>
      intro i acc s rs w' hs e he
      rw [sequential] at hs
      rw [loop]
      cases hf : f (h.args ++ args) (dictUpdate h.kwargs kwargs) s.world with
      | mk w1 res =>
        rw [hf] at hs
        cases res with
        | error e => simp at hs
        | ok r =>
          simp only [Prod.mk.injEq] at hs
          obtain ⟨h1, h2, h3⟩ := hs
          subst h2
          rw [accAll] at he
          simp only
          cases ha : accumulate acc r with
          | error e' => rw [ha] at he; simp only at he ⊢; exact he
          | ok acc1 =>
            rw [ha] at he
            simp only at he ⊢
            exact ih _ _ ⟨w1, _⟩ _ w' (by simp only; rw [← h1, ← h3]) e he
  refine run h.funcs 0 .none ⟨w, []⟩ rs w' hseq _ (key rs .none ?_)
  rcases hmix with ⟨h1, h2⟩ | h
  · exact Or.inl ⟨Or.inr h1, Or.inr h2⟩
  · exact Or.inr h

/-! ### Concrete cases -/

/-- A function that counts its calls and returns `r`. -/
def returning (r : Ret Nat Nat) : Fn Nat Nat Nat := fun _ _ w => (w + 1, .ok r)

def dictHook : Hook Nat Nat Nat := ⟨[returning (.mapping [(1, 10), (2, 20)]), returning .none, returning (.mapping [(2, 21), (3, 30)])], [7], [(5, 50)]⟩
def listHook : Hook Nat Nat Nat := ⟨[returning (.iterable [1, 2]), returning .none, returning (.iterable [3])], [], []⟩
def mixedHook : Hook Nat Nat Nat := ⟨[returning (.iterable [1, 2]), returning (.mapping [(1, 1)]), returning .none], [], []⟩

example : (call dictHook [8] [(5, 51)] 0).1.calls = [⟨0, [7, 8], [(5, 51)]⟩, ⟨1, [7, 8], [(5, 51)]⟩, ⟨2, [7, 8], [(5, 51)]⟩] ∧
    (call dictHook [8] [(5, 51)] 0).1.calls = expectedCalls dictHook [8] [(5, 51)] 3 := by decide
example : (call dictHook [] [] 0).2 = .ok (.dict [(1, 10), (2, 21), (3, 30)]) := rfl
example : (call listHook [] [] 0).2 = .ok (.list [1, 2, 3]) := rfl
example : (call mixedHook [] [] 0).2 = .error .typeError := rfl
example : (call mixedHook [] [] 0).1.calls.length = 2 := rfl

/-- The hypotheses of `C38_dicts`, `C38_lists` and `C38_mixing` are met by these hooks. -/
example : ∃ d, (call dictHook [] [] 0).2 = .ok (.dict d) ∧ dictGet d 2 = some 21 := by
  obtain ⟨_, d, h1, h2⟩ := C38_dicts dictHook [] [] 0 [.mapping [(1, 10), (2, 20)], .none, .mapping [(2, 21), (3, 30)]] 3 rfl
    (by simp [IsNone, IsMapping]) (by simp [RetOk, KeysNodup]) ⟨.mapping [(1, 10), (2, 20)], by simp, trivial⟩
  exact ⟨d, h1, by rw [h2]; rfl⟩
example : (call listHook [] [] 0).2 = .ok (.list (allItems [.iterable [1, 2], (.none : Ret Nat Nat), .iterable [3]])) :=
  (C38_lists listHook [] [] 0 [.iterable [1, 2], .none, .iterable [3]] 3 rfl (by simp [IsNone, IsIterable])).2.1 ⟨.iterable [3], by simp, trivial⟩
example : (call mixedHook [] [] 0).2 = .error .typeError :=
  C38_mixing mixedHook [] [] 0 [.iterable [1, 2], .mapping [(1, 1)], .none] 3 rfl
    (Or.inl ⟨⟨.mapping [(1, 1)], by simp, trivial⟩, ⟨.iterable [1, 2], by simp, trivial⟩⟩)

end EvoTorch.Hook
