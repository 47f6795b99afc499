import Verif.Model.NetParser
import Mathlib.Data.List.Basic
import Mathlib.Data.List.Forall2
/-! Property C61: network strings build the written pipeline. -/
namespace EvoTorch.NetParser
open EvoTorch
variable {V C M : Type}

/-! ### Specification -/

/-- The stages of a pipeline `A >> B >> C`, in the written order, whatever the parentheses. -/
def stages : Expr V → List (Expr V)
  | .binop true l r => stages l ++ stages r
  | e => [e]

/-- An argument stands for a value: a constant's name for the constant, `name[i]` for an item of the constant, a literal for itself. -/
inductive Denotes (lib : Lib V C M) (constants : List (String × V)) : Expr V → V → Prop
  | constant (id : String) (v : V) (h : constants.lookup id = some v) : Denotes lib constants (.name id) v
  | item (id : String) (i j c v : V) (hc : constants.lookup id = some c) (hj : lib.literal (.const i) = some j) (hv : lib.index c j = some v) :
      Denotes lib constants (.subscript (.name id) (.const i)) v
  | literal (e : Expr V) (v : V) (hn : ∀ id, e ≠ .name id) (hs : ∀ a b, e ≠ .subscript a b) (h : lib.literal e = some v) : Denotes lib constants e v

/-- A class name stands for a class: one of EvoTorch's layers, otherwise one of `torch.nn`. -/
def ClassOf (lib : Lib V C M) (name : String) (c : C) : Prop := lib.layers name = some c ∨ (lib.layers name = none ∧ lib.nn name = some c)

/-- A stage `Name(args, key=value, ...)` makes the module `m`: the class of that name is called with the values of the arguments. -/
def Makes (lib : Lib V C M) (constants : List (String × V)) (e : Expr V) (m : M) : Prop :=
  ∃ name args kws c vs kvs, e = .call (.name name) args kws ∧ ClassOf lib name c ∧ List.Forall₂ (Denotes lib constants) args vs ∧
    List.Forall₂ (fun (k : Option String × Expr V) v => k.1 = v.1 ∧ Denotes lib constants k.2 v.2) kws kvs ∧ (kvs.map Prod.fst).Nodup ∧ lib.construct c vs kvs = .ok m

/-- The modules a finished module contributes to a pipeline: its own children if it is itself a sequence, otherwise itself. -/
def parts (lib : Lib V C M) (m : M) : List M := (lib.children m).getD [m]

/-! ### Proofs -/

theorem evalArg_of (lib : Lib V C M) (constants : List (String × V)) (e : Expr V) (v : V) (h : Denotes lib constants e v) : evalArg lib constants e = .ok v := by
  cases h with
  | constant id v h => simp [evalArg, h, orFail]
  | item id i j c v hc hj hv => simp [evalArg, hc, hj, hv, orFail, Except.bind]
  | literal e v hn hs h =>
    cases e with
    | name id => exact absurd rfl (hn id)
    | subscript a b => exact absurd rfl (hs a b)
    | const v => simp [evalArg, h, orFail]
    | call f a k => simp [evalArg, h, orFail]
    | binop b l r => simp [evalArg, h, orFail]
    | other k => simp [evalArg, h, orFail]

theorem orFail_ok {α : Type} {o : Option α} {a : α} (h : orFail o = .ok a) : o = some a := by
  cases o with
  | none => cases h
  | some b => simp only [orFail, Except.ok.injEq] at h; rw [h]

theorem evalArg_ok (lib : Lib V C M) (constants : List (String × V)) (e : Expr V) (v : V) (h : evalArg lib constants e = .ok v) : Denotes lib constants e v := by
  cases e with
  | name id => exact .constant id v (orFail_ok h)
  | subscript a b =>
    cases a with
    | name id =>
      cases b with
      | const i =>
        simp only [evalArg] at h
        cases hj : lib.literal (.const i) with
        | none => rw [hj] at h; cases h
        | some j =>
          cases hc : constants.lookup id with
          | none => rw [hj, hc] at h; cases h
          | some c =>
            rw [hj, hc] at h
            exact .item id i j c v hc hj (orFail_ok h)
      | _ => simp [evalArg] at h
    | _ => simp [evalArg] at h
  | const x => exact .literal _ _ (by simp) (by simp) (orFail_ok h)
  | call f a k => exact .literal _ _ (by simp) (by simp) (orFail_ok h)
  | binop b l r => exact .literal _ _ (by simp) (by simp) (orFail_ok h)
  | other k => exact .literal _ _ (by simp) (by simp) (orFail_ok h)

theorem evalArgs_of (lib : Lib V C M) (constants : List (String × V)) (es : List (Expr V)) (vs : List V) (h : List.Forall₂ (Denotes lib constants) es vs) :
    evalArgs lib constants es = .ok vs := by
  induction h with
  | nil => rfl
  | cons h _ ih => simp [evalArgs, evalArg_of _ _ _ _ h, ih, Except.bind]

theorem setKw_new (acc : List (Option String × V)) (k : Option String) (v : V) (h : k ∉ acc.map Prod.fst) : setKw acc k v = acc ++ [(k, v)] := by
  unfold setKw
  rw [if_neg]
  simp only [List.any_eq_true, not_exists, not_and]
  intro p hp hk
  exact h (List.mem_map.2 ⟨p, hp, by simpa using hk⟩)

theorem evalKws_of (lib : Lib V C M) (constants : List (String × V)) (kws : List (Option String × Expr V)) (kvs : List (Option String × V))
    (h : List.Forall₂ (fun (k : Option String × Expr V) v => k.1 = v.1 ∧ Denotes lib constants k.2 v.2) kws kvs) :
    ∀ acc : List (Option String × V), ((acc ++ kvs).map Prod.fst).Nodup → evalKws lib constants kws acc = .ok (acc ++ kvs) := by
  induction h with
  | nil => intro acc _; simp [evalKws]
  | @cons k v kws kvs h _ ih =>
    intro acc hn
    obtain ⟨k1, e⟩ := k
    obtain ⟨k2, v⟩ := v
    obtain ⟨hk, hd⟩ := h
    simp only at hk hd
    subst hk
    have hnew : k1 ∉ acc.map Prod.fst := by
      intro hmem
      rw [List.map_append, List.map_cons, List.nodup_append] at hn
      exact hn.2.2 _ hmem _ List.mem_cons_self rfl
    simp only [evalKws, evalArg_of _ _ _ _ hd, Except.bind, setKw_new acc k1 v hnew]
    rw [ih (acc ++ [(k1, v)]) (by simpa using hn)]
    simp

theorem processCall_of (lib : Lib V C M) (constants : List (String × V)) (e : Expr V) (m : M) (h : Makes lib constants e m) : processExpr lib constants e = .ok (.obj m) := by
  obtain ⟨name, args, kws, c, vs, kvs, rfl, hc, ha, hk, hn, hm⟩ := h
  have hcls : getClass lib name = .ok c := by
    unfold getClass
    rcases hc with h | ⟨h1, h2⟩
    · rw [h]
    · rw [h1, h2]
  simp [processExpr, processCall, evalArgs_of _ _ _ _ ha, evalKws_of _ _ _ _ hk [] (by simpa using hn), funcId, hcls, hm, lift, Except.bind]

theorem split_append {α β : Type} {R : α → β → Prop} (l1 l2 : List α) : ∀ ms : List β, List.Forall₂ R (l1 ++ l2) ms →
    ∃ m1 m2, List.Forall₂ R l1 m1 ∧ List.Forall₂ R l2 m2 ∧ ms = m1 ++ m2 := by
  induction l1 with
  | nil => intro ms h; exact ⟨[], ms, .nil, h, rfl⟩
  | cons a l1 ih =>
    intro ms h
    cases h with
    | cons h ht =>
      obtain ⟨m1, m2, h1, h2, rfl⟩ := ih _ ht
      exact ⟨_ :: m1, m2, .cons h h1, h2, rfl⟩

theorem stages_pos : ∀ e : Expr V, 0 < (stages e).length
  | .binop true l r => by have := stages_pos l; simp [stages]; omega
  | .binop false l r => by simp [stages]
  | .call _ _ _ => by simp [stages]
  | .name _ => by simp [stages]
  | .const _ => by simp [stages]
  | .subscript _ _ => by simp [stages]
  | .other _ => by simp [stages]

/-! ### Theorems -/

/-- **C61.** A pipeline of two or more stages, however parenthesized, gives one flat `MultiLayered` of the stages' modules in the written order. -/
theorem C61_pipeline_partial (lib : Lib V C M) (constants : List (String × V)) (e : Expr V) (ms : List M)
    (h : List.Forall₂ (Makes lib constants) (stages e) ms) :
    (∀ m, ms = [m] → processExpr lib constants e = .ok (.obj m)) ∧ (2 ≤ ms.length → processExpr lib constants e = .ok (.multi (ms.flatMap (parts lib)))) := by
  have key : ∀ (e : Expr V) (ms : List M), List.Forall₂ (Makes lib constants) (stages e) ms →
      ∃ net, processExpr lib constants e = .ok net ∧ submodules lib net = ms.flatMap (parts lib) ∧ (∀ m, ms = [m] → net = .obj m) ∧
        (2 ≤ ms.length → net = .multi (ms.flatMap (parts lib))) := by
    intro e
    induction e using Expr.rec (motive_2 := fun _ => True) (motive_3 := fun _ => True) (motive_4 := fun _ => True) with
    | binop b l r ihl ihr =>
      intro ms hms
      cases b with
      | true =>
        simp only [stages] at hms
        obtain ⟨m1, m2, h1, h2, rfl⟩ : ∃ m1 m2, List.Forall₂ (Makes lib constants) (stages l) m1 ∧ List.Forall₂ (Makes lib constants) (stages r) m2 ∧ ms = m1 ++ m2 := by
          exact split_append _ _ _ hms
        obtain ⟨n1, p1, s1, _, _⟩ := ihl m1 h1
        obtain ⟨n2, p2, s2, _, _⟩ := ihr m2 h2
        refine ⟨concatModules lib n1 n2, by simp only [processExpr, p1, p2, Except.bind, if_true], ?_, ?_, ?_⟩
        · simp [concatModules, submodules.eq_1, s1, s2]
        · intro m hm
          have a1 := stages_pos l
          have a2 := stages_pos r
          have := congrArg List.length hm
          rw [List.length_append, ← h1.length_eq, ← h2.length_eq] at this
          simp at this
          omega
        · intro _
          simp [concatModules, s1, s2]
      | false =>
        simp only [stages] at hms
        cases hms with
        | cons h _ => obtain ⟨_, _, _, _, _, _, h, _⟩ := h; cases h
    | call f args kws _ _ _ =>
      intro ms hms
      simp only [stages] at hms
      cases hms with
      | cons h ht =>
        cases ht
        refine ⟨_, processCall_of _ _ _ _ h, by simp [submodules, parts], ?_, ?_⟩
        · rintro m ⟨⟩; rfl
        · intro h; simp at h
    | name id =>
      intro ms hms
      simp only [stages] at hms
      cases hms with
      | cons h _ => obtain ⟨_, _, _, _, _, _, h, _⟩ := h; cases h
    | const v =>
      intro ms hms
      simp only [stages] at hms
      cases hms with
      | cons h _ => obtain ⟨_, _, _, _, _, _, h, _⟩ := h; cases h
    | subscript a b _ _ =>
      intro ms hms
      simp only [stages] at hms
      cases hms with
      | cons h _ => obtain ⟨_, _, _, _, _, _, h, _⟩ := h; cases h
    | other k =>
      intro ms hms
      simp only [stages] at hms
      cases hms with
      | cons h _ => obtain ⟨_, _, _, _, _, _, h, _⟩ := h; cases h
    | _ => trivial
  obtain ⟨net, h1, _, h3, h4⟩ := key e ms h
  exact ⟨fun m hm => by rw [h1, h3 m hm], fun hl => by rw [h1, h4 hl]⟩

/-- If the stages' modules are not sequences themselves, the pipeline consists of exactly these modules. -/
theorem C61_flat_partial (lib : Lib V C M) (constants : List (String × V)) (e : Expr V) (ms : List M)
    (h : List.Forall₂ (Makes lib constants) (stages e) ms) (hl : 2 ≤ ms.length) (hc : ∀ m ∈ ms, lib.children m = none) :
    processExpr lib constants e = .ok (.multi ms) := by
  rw [(C61_pipeline_partial lib constants e ms h).2 hl]
  congr 2
  clear h hl
  induction ms with
  | nil => rfl
  | cons m ms ih => simp [parts, hc m (by simp)]; exact ih fun m hm => hc m (by simp [hm])

/-- A supported stage: a call of a known class by its name, with arguments which stand for values. -/
def Supported (lib : Lib V C M) (constants : List (String × V)) (e : Expr V) : Prop :=
  ∃ name args kws, e = .call (.name name) args kws ∧ (∃ c, ClassOf lib name c) ∧ (∀ a ∈ args, ∃ v, Denotes lib constants a v) ∧ ∀ k ∈ kws, ∃ v, Denotes lib constants k.2 v

theorem evalArg_cases (lib : Lib V C M) (constants : List (String × V)) (e : Expr V) : (∃ v, evalArg lib constants e = .ok v) ∨ evalArg lib constants e = .error .parsing := by
  have hor : ∀ {α : Type} (o : Option α), (∃ v, orFail o = .ok v) ∨ orFail o = .error .parsing := by
    intro α o; cases o with
    | none => exact .inr rfl
    | some a => exact .inl ⟨a, rfl⟩
  have hsub : ∀ a b : Expr V, (∃ v, evalArg lib constants (.subscript a b) = .ok v) ∨ evalArg lib constants (.subscript a b) = .error .parsing := by
    intro a b
    cases a with
    | name id =>
      cases b with
      | const i =>
        simp only [evalArg]
        rcases hor (lib.literal (.const i)) with ⟨j, hj⟩ | hj
        · rcases hor (constants.lookup id) with ⟨c, hc⟩ | hc
          · simp only [hj, hc, Except.bind]; exact hor _
          · right; simp only [hj, hc, Except.bind]
        · right; simp only [hj, Except.bind]
      | _ => right; rfl
    | _ => right; rfl
  cases e with
  | name id => exact hor _
  | subscript a b => exact hsub a b
  | const x => exact hor _
  | call f a k => exact hor _
  | binop b l r => exact hor _
  | other k => exact hor _

theorem evalArgs_cases (lib : Lib V C M) (constants : List (String × V)) (es : List (Expr V)) :
    ((∃ vs, evalArgs lib constants es = .ok vs) ∧ ∀ a ∈ es, ∃ v, Denotes lib constants a v) ∨ evalArgs lib constants es = .error .parsing := by
  induction es with
  | nil => exact .inl ⟨⟨[], rfl⟩, by simp⟩
  | cons e es ih =>
    rcases evalArg_cases lib constants e with ⟨v, hv⟩ | hv
    · rcases ih with ⟨⟨vs, hvs⟩, hd⟩ | hvs
      · refine .inl ⟨⟨v :: vs, by simp [evalArgs, hv, hvs, Except.bind]⟩, ?_⟩
        intro a ha
        rcases List.mem_cons.1 ha with rfl | ha
        · exact ⟨v, evalArg_ok _ _ _ _ hv⟩
        · exact hd a ha
      · exact .inr (by simp [evalArgs, hv, hvs, Except.bind])
    · exact .inr (by simp [evalArgs, hv, Except.bind])

theorem evalKws_cases (lib : Lib V C M) (constants : List (String × V)) (es : List (Option String × Expr V)) : ∀ acc,
    ((∃ vs, evalKws lib constants es acc = .ok vs) ∧ ∀ k ∈ es, ∃ v, Denotes lib constants k.2 v) ∨ evalKws lib constants es acc = .error .parsing := by
  induction es with
  | nil => intro acc; exact .inl ⟨⟨acc, rfl⟩, by simp⟩
  | cons e es ih =>
    intro acc
    obtain ⟨k, e⟩ := e
    rcases evalArg_cases lib constants e with ⟨v, hv⟩ | hv
    · rcases ih (setKw acc k v) with ⟨⟨vs, hvs⟩, hd⟩ | hvs
      · refine .inl ⟨⟨vs, by simp [evalKws, hv, hvs, Except.bind]⟩, ?_⟩
        intro a ha
        rcases List.mem_cons.1 ha with rfl | ha
        · exact ⟨v, evalArg_ok _ _ _ _ hv⟩
        · exact hd a ha
      · exact .inr (by simp [evalKws, hv, hvs, Except.bind])
    · exact .inr (by simp [evalKws, hv, Except.bind])

theorem getClass_cases (lib : Lib V C M) (name : String) : (∃ c, getClass lib name = .ok c ∧ ClassOf lib name c) ∨ getClass lib name = .error .parsing := by
  unfold getClass ClassOf
  cases lib.layers name with
  | some c => exact .inl ⟨c, rfl, .inl rfl⟩
  | none =>
    cases lib.nn name with
    | some c => exact .inl ⟨c, rfl, .inr ⟨rfl, rfl⟩⟩
    | none => exact .inr rfl

/-- **C61.** Unknown names and unsupported syntax raise NetParsingError: if some stage is not a call of a known class, or has an argument which stands for no value (an unknown constant, a bad index, not a literal), and
no constructor raises and every call is a call by a plain name, the parser raises NetParsingError. -/
theorem C61_unsupported_partial (lib : Lib V C M) (constants : List (String × V)) (e : Expr V)
    (hfunc : ∀ f args kws, .call f args kws ∈ stages e → ∃ name, f = .name name) (hcons : ∀ c vs kvs, ∃ m, lib.construct c vs kvs = .ok m)
    (s : Expr V) (hs : s ∈ stages e) (hbad : ¬ Supported lib constants s) : processExpr lib constants e = .error .parsing := by
  have key : ∀ e : Expr V, (∀ f args kws, .call f args kws ∈ stages e → ∃ name, f = .name name) →
      ((∃ net, processExpr lib constants e = .ok net) ∧ ∀ s ∈ stages e, Supported lib constants s) ∨ processExpr lib constants e = .error .parsing := by
    intro e
    induction e using Expr.rec (motive_2 := fun _ => True) (motive_3 := fun _ => True) (motive_4 := fun _ => True) with
    | binop b l r ihl ihr =>
      intro hf
      cases b with
      | true =>
        simp only [stages, List.mem_append] at hf ⊢
        simp only [processExpr, if_true]
        rcases ihl fun f a k h => hf f a k (.inl h) with ⟨⟨nl, hl⟩, sl⟩ | hl
        · rcases ihr fun f a k h => hf f a k (.inr h) with ⟨⟨nr, hr⟩, sr⟩ | hr
          · left
            refine ⟨⟨concatModules lib nl nr, by simp only [hl, hr, Except.bind]⟩, ?_⟩
            intro s hs
            rcases hs with hs | hs
            · exact sl s hs
            · exact sr s hs
          · right; simp only [hl, hr, Except.bind]
        · right; simp only [hl, Except.bind]
      | false => right; simp [processExpr]
    | call f args kws _ _ _ =>
      intro hf
      obtain ⟨name, rfl⟩ := hf f args kws (by simp [stages])
      simp only [processExpr, processCall]
      rcases evalArgs_cases lib constants args with ⟨⟨vs, hvs⟩, da⟩ | h
      · rcases evalKws_cases lib constants kws [] with ⟨⟨kvs, hkvs⟩, dk⟩ | h
        · rcases getClass_cases lib name with ⟨c, hc, hcls⟩ | h
          · obtain ⟨m, hm⟩ := hcons c vs kvs
            left
            refine ⟨⟨.obj m, by simp [hvs, hkvs, funcId, hc, hm, lift, Except.bind]⟩, ?_⟩
            intro s hs
            simp only [stages, List.mem_singleton] at hs
            subst hs
            exact ⟨name, args, kws, rfl, ⟨c, hcls⟩, da, dk⟩
          · right; simp [hvs, hkvs, funcId, h, Except.bind]
        · right; simp [hvs, h, Except.bind]
      · right; simp [h, Except.bind]
    | name id => intro _; exact .inr rfl
    | const v => intro _; exact .inr rfl
    | subscript a b _ _ => intro _; exact .inr rfl
    | other k => intro _; exact .inr rfl
    | _ => trivial
  rcases key e hfunc with ⟨_, h⟩ | h
  · exact absurd (h s hs) hbad
  · exact h

/-- **C61, the exception.** A call by a dotted name such as `nn.Linear(4, 2)` (any callee which is not a plain name) raises AttributeError. -/
theorem C61_violated_dotted_name (lib : Lib V C M) (constants : List (String × V)) (k : ℕ) : processExpr lib constants (.call (.other k) [] []) = .error (.py .attributeError) := by
  simp [processExpr, processCall, evalArgs, evalKws, funcId, Except.bind]

/-- **C61, another exception.** A keyword which is given twice (a syntax error in Python) is accepted: the last value counts, in the place of the first. -/
theorem C61_violated_repeated_keyword (lib : Lib V C M) (constants : List (String × V)) (f : Expr V) (args : List (Expr V)) (k k' : String) (hk : k ≠ k')
    (a b c : V) (ha : lib.literal (.const a) = some a) (hb : lib.literal (.const b) = some b) (hc : lib.literal (.const c) = some c) :
    processExpr lib constants (.call f args [(some k, .const a), (some k', .const b), (some k, .const c)]) =
      processExpr lib constants (.call f args [(some k, .const c), (some k', .const b)]) := by
  have h1 : (k == k') = false := by simpa using hk
  have h2 : (k' == k) = false := by simpa using Ne.symm hk
  simp [processExpr, processCall, evalKws, evalArg, setKw, orFail, ha, hb, hc, Except.bind, h1, h2, hk, Ne.symm hk]

/-! ### An instance -/

/-- Values are numbers, classes and modules are names with arguments; `Pair` makes a sequence of two modules. -/
def demoLib : Lib Int String (String × List Int) where
  literal := fun e => match e with
    | .const v => some v
    | _ => none
  index := fun c i => if i = 0 then some c else none
  layers := fun n => if n = "RNN" then some "layers.RNN" else none
  nn := fun n => if n = "RNN" ∨ n = "Linear" then some ("nn." ++ n) else none
  construct := fun c vs _ => .ok (c, vs)
  children := fun _ => none

/-- `RNN(n, 4) >> (Linear(4, 2) >> Linear(2, n[0]))` with `n = 8`. -/
def demoExpr : Expr Int :=
  .binop true (.call (.name "RNN") [.name "n", .const 4] [])
    (.binop true (.call (.name "Linear") [.const 4, .const 2] []) (.call (.name "Linear") [.const 2, .subscript (.name "n") (.const 0)] []))

example : List.Forall₂ (Makes demoLib [("n", 8)]) (stages demoExpr) [("layers.RNN", [8, 4]), ("nn.Linear", [4, 2]), ("nn.Linear", [2, 8])] := by
  refine .cons ?_ (.cons ?_ (.cons ?_ .nil))
  · exact ⟨_, _, _, "layers.RNN", _, [], rfl, .inl rfl, .cons (.constant _ _ rfl) (.cons (.literal _ _ (by simp) (by simp) rfl) .nil), .nil, by simp, rfl⟩
  · exact ⟨_, _, _, "nn.Linear", _, [], rfl, .inr ⟨rfl, rfl⟩, .cons (.literal _ _ (by simp) (by simp) rfl) (.cons (.literal _ _ (by simp) (by simp) rfl) .nil), .nil, by simp, rfl⟩
  · exact ⟨_, _, _, "nn.Linear", _, [], rfl, .inr ⟨rfl, rfl⟩, .cons (.literal _ _ (by simp) (by simp) rfl) (.cons (.item _ _ 0 8 _ rfl rfl rfl) .nil), .nil, by simp, rfl⟩

/-- `Linear(4, a=1, b=2, a=3)`. -/
example : "a" ≠ "b" ∧ demoLib.literal (.const 1) = some 1 ∧ demoLib.literal (.const 2) = some 2 ∧ demoLib.literal (.const 3) = some 3 := by decide

example : ¬ Supported demoLib [("n", 8)] (.call (.name "Convolution") [] []) := by
  rintro ⟨name, _, _, h, ⟨c, hc⟩, _⟩
  cases h
  rcases hc with hc | ⟨_, hc⟩ <;> simp [demoLib] at hc

end EvoTorch.NetParser
