import Verif.Model.Printing
import Mathlib.Data.List.Forall2
/-!
C140: the text of a container is complete, or cut at the given depth, and never ends in a RecursionError.
C141: errors are reported where they are: positions in network strings, and errors returned as results.
-/
namespace EvoTorch.Printing
open EvoTorch

/-! ### Specification -/

/-- Texts separated by commas. -/
def commas : List String → String
  | [] => ""
  | [t] => t
  | t :: t' :: ts => t ++ ", " ++ commas (t' :: ts)

/-- The object at `x` is nested at most `n` deep, and its full text is `t`. -/
def Text (heap : ℕ → Node) : ℕ → ℕ → String → Prop
  | 0, x, t => heap x = .plain t
  | n + 1, x, t => heap x = .plain t ∨
    (∃ cls items ts, heap x = .iter cls items ∧ List.Forall₂ (Text heap n) items ts ∧ t = cls ++ "([" ++ commas ts ++ "])") ∨
    (∃ cls items ts, heap x = .mapping cls items ∧ List.Forall₂ (fun (p : ℕ × ℕ) (q : String × String) => Text heap n p.1 q.1 ∧ Text heap n p.2 q.2) items ts ∧
      t = cls ++ "({" ++ commas (ts.map fun q => q.1 ++ ": " ++ q.2) ++ "})")

/-! ### Containers -/

theorem joinLoop_false (ts : List String) : ∀ acc t, joinLoop (t :: ts) false acc = acc ++ ", " ++ commas (t :: ts) := by
  induction ts with
  | nil => intro acc t; rfl
  | cons u ts ih =>
    intro acc t
    have : joinLoop (t :: u :: ts) false acc = joinLoop (u :: ts) false (acc ++ ", " ++ t) := rfl
    rw [this, ih]
    simp only [commas, String.append_assoc]

theorem joinLoop_true (ts : List String) (acc : String) : joinLoop ts true acc = acc ++ commas ts := by
  cases ts with
  | nil => simp [joinLoop, commas]
  | cons t ts =>
    cases ts with
    | nil => rfl
    | cons u ts =>
      have : joinLoop (t :: u :: ts) true acc = joinLoop (u :: ts) false (acc ++ t) := rfl
      rw [this, joinLoop_false]
      simp only [commas, String.append_assoc]

theorem mapM_forall₂ {α β : Type} {f : α → Except PyErr β} {R : α → β → Prop} (h : ∀ a b, R a b → f a = .ok b) {l : List α} {m : List β} (hl : List.Forall₂ R l m) : l.mapM f = .ok m := by
  induction hl with
  | nil => rfl
  | cons hab _ ih =>
    rw [List.mapM_cons, h _ _ hab, ih]
    rfl

/-- C140: a container nested at most as deep as `max_depth` is printed completely, whatever else the heap contains: the items in order, keys before values, separated by commas. The text does not depend
on `max_depth` then. -/
theorem C140_complete (heap : ℕ → Node) : ∀ (n : ℕ) (x : ℕ) (t : String), Text heap n x t → (∀ s, heap x ≠ .plain s) → ∀ (room : ℕ) (depth : ℤ), n ≤ room → (n : ℤ) ≤ depth →
    toStr heap room depth x = .ok t := by
  intro n
  induction n with
  | zero => intro x t h hp; exact absurd h (hp t)
  | succ n ih =>
    intro x t h hp room depth hr hd
    obtain ⟨room, rfl⟩ : ∃ r, room = r + 1 := ⟨room - 1, by omega⟩
    have hitem : ∀ y u, Text heap n y u → itemRepr heap (toStr heap room (depth - 1)) y = .ok u := by
      intro y u hu
      unfold itemRepr
      cases hy : heap y with
      | plain s =>
        simp only
        have : Text heap n y u → u = s := by
          intro h
          cases n with
          | zero => have h' : heap y = .plain u := h; rw [hy] at h'; cases h'; rfl
          | succ n =>
            rcases h with h | ⟨_, _, _, h, _⟩ | ⟨_, _, _, h, _⟩
            · rw [hy] at h; cases h; rfl
            · rw [hy] at h; cases h
            · rw [hy] at h; cases h
        rw [this hu]
      | mapping cls items => exact ih y u hu (by simp [hy]) room (depth - 1) (by omega) (by omega)
      | iter cls items => exact ih y u hu (by simp [hy]) room (depth - 1) (by omega) (by omega)
      | neither => exact ih y u hu (by simp [hy]) room (depth - 1) (by omega) (by omega)
    rw [toStr, if_neg (by omega)]
    rcases h with h | ⟨cls, items, ts, h, hts, rfl⟩ | ⟨cls, items, ts, h, hts, rfl⟩
    · exact absurd h (hp t)
    · simp only [h]
      rw [mapM_forall₂ hitem hts]
      simp only [bind, Except.bind, joinLoop_true]
    · simp only [h]
      have hm : items.mapM (fun p => do
          let k ← itemRepr heap (toStr heap room (depth - 1)) p.1
          let v ← itemRepr heap (toStr heap room (depth - 1)) p.2
          (.ok (k ++ ": " ++ v) : Except PyErr String)) = .ok (ts.map fun q => q.1 ++ ": " ++ q.2) := by
        apply mapM_forall₂ (R := fun p s => ∃ q : String × String, s = q.1 ++ ": " ++ q.2 ∧ Text heap n p.1 q.1 ∧ Text heap n p.2 q.2)
        · rintro a b ⟨q, rfl, h1, h2⟩
          rw [hitem _ _ h1, hitem _ _ h2]
          rfl
        · rw [List.forall₂_map_right_iff]
          exact hts.imp fun p q hpq => ⟨q, rfl, hpq⟩
      rw [hm]
      simp only [bind, Except.bind, joinLoop_true]

theorem mapM_total {α β : Type} {f : α → Except PyErr β} (l : List α) (h : ∀ a ∈ l, ∃ b, f a = .ok b) : ∃ m, l.mapM f = .ok m := by
  induction l with
  | nil => exact ⟨[], rfl⟩
  | cons a l ih =>
    obtain ⟨b, hb⟩ := h a (by simp)
    obtain ⟨m, hm⟩ := ih fun x hx => h x (by simp [hx])
    exact ⟨b :: m, by rw [List.mapM_cons, hb, hm]; rfl⟩

/-- C140: printing never runs out of stack: whatever the containers contain, themselves included, printing needs at most one nested call more than `max_depth`. With the default, eleven. -/
theorem C140_terminates (heap : ℕ → Node) (hk : ∀ x, heap x ≠ .neither) (depth : ℕ) :
    (∀ (room : ℕ) (x : ℕ), depth + 1 ≤ room → (∀ s, heap x ≠ .plain s) → ∃ t, toStr heap room depth x = .ok t) ∧ (∀ x, (∀ s, heap x ≠ .plain s) → ∃ t, str heap 11 x = .ok t) := by
  have key : ∀ (depth : ℕ) (room : ℕ) (x : ℕ), depth + 1 ≤ room → (∀ s, heap x ≠ .plain s) → ∃ t, toStr heap room depth x = .ok t := by
    intro depth
    induction depth with
    | zero =>
      intro room x hr _
      obtain ⟨room, rfl⟩ : ∃ r, room = r + 1 := ⟨room - 1, by omega⟩
      exact ⟨"<...>", by rw [toStr, if_pos (by simp)]⟩
    | succ depth ih =>
      intro room x hr hp
      obtain ⟨room, rfl⟩ : ∃ r, room = r + 1 := ⟨room - 1, by omega⟩
      have hitem : ∀ y, ∃ u, itemRepr heap (toStr heap room ((depth + 1 : ℕ) - 1)) y = .ok u := by
        intro y
        have e : (((depth + 1 : ℕ) : ℤ) - 1) = (depth : ℕ) := by omega
        rw [e]
        unfold itemRepr
        cases hy : heap y with
        | plain s => exact ⟨s, rfl⟩
        | mapping cls items => exact ih room y (by omega) (by simp [hy])
        | iter cls items => exact ih room y (by omega) (by simp [hy])
        | neither => exact absurd hy (hk y)
      rw [toStr, if_neg (by omega)]
      cases hx : heap x with
      | plain s => exact absurd hx (hp s)
      | neither => exact absurd hx (hk x)
      | iter cls items =>
        obtain ⟨m, hm⟩ := mapM_total items fun y _ => hitem y
        exact ⟨_, by simp only; rw [hm]; rfl⟩
      | mapping cls items =>
        obtain ⟨m, hm⟩ := mapM_total (f := fun p : ℕ × ℕ => do
          let k ← itemRepr heap (toStr heap room ((depth + 1 : ℕ) - 1)) p.1
          let v ← itemRepr heap (toStr heap room ((depth + 1 : ℕ) - 1)) p.2
          (.ok (k ++ ": " ++ v) : Except PyErr String)) items fun p _ => by
            obtain ⟨k, h1⟩ := hitem p.1
            obtain ⟨v, h2⟩ := hitem p.2
            exact ⟨_, by rw [h1, h2]; rfl⟩
        exact ⟨_, by simp only; rw [hm]; rfl⟩
  exact ⟨key depth, fun x hx => key 10 11 x (by omega) hx⟩

/-- The text of a container that contains only itself, cut at a depth. -/
def loopText (cls : String) : ℕ → String
  | 0 => "<...>"
  | n + 1 => cls ++ "([" ++ loopText cls n ++ "])"

/-- C140: a container that contains itself is printed `max_depth` times, and then cut; with a depth of zero or less nothing but the cut is printed, of any container. -/
theorem C140_cut (heap : ℕ → Node) (x : ℕ) (cls : String) (h : heap x = .iter cls [x]) (room : ℕ) :
    (∀ n : ℕ, n + 1 ≤ room → toStr heap room n x = .ok (loopText cls n)) ∧ (∀ y (d : ℤ), d ≤ 0 → 0 < room → toStr heap room d y = .ok "<...>") := by
  constructor
  · intro n
    induction n generalizing room with
    | zero =>
      intro hr
      obtain ⟨room, rfl⟩ : ∃ r, room = r + 1 := ⟨room - 1, by omega⟩
      rw [toStr, if_pos (by simp)]; rfl
    | succ n ih =>
      intro hr
      obtain ⟨room, rfl⟩ : ∃ r, room = r + 1 := ⟨room - 1, by omega⟩
      rw [toStr, if_neg (by omega)]
      have e : (((n + 1 : ℕ) : ℤ) - 1) = (n : ℕ) := by omega
      simp only [h, List.mapM_cons, List.mapM_nil, itemRepr, e]
      rw [ih room (by omega)]
      simp only [bind, Except.bind, pure, Except.pure, joinLoop_true, commas, loopText]
  · intro y d hd hr
    obtain ⟨room, rfl⟩ : ∃ r, room = r + 1 := ⟨room - 1, by omega⟩
    rw [toStr, if_pos hd]

/-- A heap: a mapping from a text to a list of two texts. -/
def exHeap : ℕ → Node
  | 0 => .mapping "ImmutableDict" [(1, 2)]
  | 2 => .iter "ImmutableList" [1, 3]
  | 1 => .plain "'a'"
  | _ => .plain "5"

example : Text exHeap 2 0 ("ImmutableDict" ++ "({" ++ commas ["'a'" ++ ": " ++ ("ImmutableList" ++ "([" ++ commas ["'a'", "5"] ++ "])")] ++ "})") := by
  refine Or.inr (Or.inr ⟨_, _, [("'a'", _)], rfl, ?_, rfl⟩)
  refine List.Forall₂.cons ⟨Or.inl rfl, Or.inr (Or.inl ⟨_, _, _, rfl, ?_, rfl⟩)⟩ List.Forall₂.nil
  exact List.Forall₂.cons rfl (List.Forall₂.cons rfl List.Forall₂.nil)
example : (str exHeap 11 0).toOption = some "ImmutableDict({'a': ImmutableList(['a', 5])})" := by decide +kernel

/-! ### Positions -/

theorem place_from (size : Char → ℕ) (l : List Char) : ∀ p : ℕ × ℕ, (l.foldl (fun p c => if c = '\n' then (p.1 + 1, 0) else (p.1, p.2 + size c)) p).1 = p.1 + (l.filter (· = '\n')).length := by
  induction l with
  | nil => intro p; rfl
  | cons c l ih =>
    intro p
    simp only [List.foldl_cons, ih]
    by_cases hc : c = '\n'
    · subst hc; simp; omega
    · simp [hc]

theorem place_shift (size : Char → ℕ) (l : List Char) : ∀ a b : ℕ, l.foldl (fun p c => if c = '\n' then (p.1 + 1, 0) else (p.1, p.2 + size c)) (a + 1, b) =
    ((l.foldl (fun p c => if c = '\n' then (p.1 + 1, 0) else (p.1, p.2 + size c)) (a, b)).1 + 1, (l.foldl (fun p c => if c = '\n' then (p.1 + 1, 0) else (p.1, p.2 + size c)) (a, b)).2) := by
  induction l with
  | nil => intro a b; rfl
  | cons c l ih =>
    intro a b
    simp only [List.foldl_cons]
    by_cases hc : c = '\n'
    · simp only [if_pos hc]; exact ih _ _
    · simp only [if_neg hc]; exact ih _ _

theorem place_col (l : List Char) : ∀ p : ℕ × ℕ, '\n' ∉ l → (l.foldl (fun p c => if c = '\n' then (p.1 + 1, 0) else (p.1, p.2 + 1)) p).2 = p.2 + l.length := by
  induction l with
  | nil => intro p _; rfl
  | cons c l ih =>
    intro p h
    have hc : ¬ c = '\n' := fun hh => h (by simp [hh])
    simp only [List.foldl_cons, if_neg hc]
    rw [ih _ (fun hh => h (by simp [hh]))]
    simp only [List.length_cons]
    omega

/-- C141: the line shown in a parsing error is the line of the network string (counted from one) in which the faulty part starts, although more is parsed than this string. If its characters are single
bytes, the column is the one (counted from one) at which it starts: the number of characters after the last newline, plus one. -/
theorem C141_position_partial (size : Char → ℕ) (s : List Char) (k : ℕ) (hk : k ≤ s.length) :
    (reported size s k).1 = some ((((s.take k).filter (· = '\n')).length : ℤ) + 1) ∧
    ∀ before line : List Char, s.take k = before ++ line → (before = [] ∨ before.getLast? = some '\n') → '\n' ∉ line → (∀ c ∈ line, size c = 1) → (reported size s k).2 = some (line.length + 1) := by
  have htake : (wrapped s).take (2 + k) = ['(', '\n'] ++ s.take k := by
    have e : 2 + k = (['(', '\n'] : List Char).length + k := by simp
    rw [wrapped, List.append_assoc, e, List.take_length_add_append, List.take_append_of_le_length hk]
  have hplace : place size ((wrapped s).take (2 + k)) = ((place size (s.take k)).1 + 1, (place size (s.take k)).2) := by
    rw [htake]
    unfold place
    rw [List.foldl_append]
    have : (['(', '\n'] : List Char).foldl (fun p c => if c = '\n' then (p.1 + 1, 0) else (p.1, p.2 + size c)) (1, 0) = (1 + 1, 0) := by simp
    rw [this, place_shift]
  constructor
  · simp only [reported, hplace, shownAt, Option.map_some]
    rw [place, place_from]
    congr 1
    push_cast
    omega
  · intro before line hsplit hbefore hline hsize
    simp only [reported, hplace, shownAt, Option.map_some]
    congr 2
    rw [hsplit]
    unfold place
    rw [List.foldl_append]
    have hcol : (before.foldl (fun p c => if c = '\n' then (p.1 + 1, 0) else (p.1, p.2 + size c)) (1, 0)).2 = 0 := by
      rcases hbefore with rfl | hb
      · rfl
      · obtain ⟨pre, rfl⟩ := List.getLast?_eq_some_iff.1 hb
        rw [List.foldl_append]
        simp
    generalize before.foldl (fun p c => if c = '\n' then (p.1 + 1, 0) else (p.1, p.2 + size c)) (1, 0) = p at hcol
    have hext : ∀ (l : List Char) (p : ℕ × ℕ), (∀ c ∈ l, size c = 1) → l.foldl (fun p c => if c = '\n' then (p.1 + 1, 0) else (p.1, p.2 + size c)) p =
        l.foldl (fun p c => if c = '\n' then (p.1 + 1, 0) else (p.1, p.2 + 1)) p := by
      intro l
      induction l with
      | nil => intro p _; rfl
      | cons c l ih =>
        intro p h
        simp only [List.foldl_cons, h c (by simp)]
        exact ih _ fun c hc => h c (by simp [hc])
    rw [hext line p hsize, place_col line p hline, hcol]
    omega

/-- C141 fails: columns are counted in bytes. After one character that takes two bytes, the column is one too many. -/
theorem C141_violated_bytes (size : Char → ℕ) (h : size 'é' = 2) : (reported size ['é', '+', 'x'] 1).2 = some 3 := by
  simp [reported, wrapped, place, shownAt, h]

/-- C141: a function called safely gives its result, or the error as a result; such a result is false, whatever the error. Only exceptions that are no errors (such as an interrupt) get through. -/
theorem C141_erroneous_result {α X : Type} (isException : X → Bool) (t : α → Bool) (f : Except X α) :
    (∀ v, f = .ok v → ∃ r, callSafely isException f = .ok r ∧ r = .inl v ∧ truth t r = t v) ∧
    (∀ e, f = .error e → isException e = true → ∃ r, callSafely isException f = .ok r ∧ r = .inr e ∧ truth t r = false) ∧
    (∀ e, callSafely isException f = .error e → f = .error e ∧ isException e = false) := by
  refine ⟨?_, ?_, ?_⟩
  · rintro v rfl; exact ⟨_, rfl, rfl, rfl⟩
  · rintro e rfl h
    exact ⟨.inr e, by simp [callSafely, h], rfl, rfl⟩
  · intro e h
    cases f with
    | ok v => cases h
    | error e' =>
      simp only [callSafely] at h
      split at h
      · cases h
      · rename_i hx
        cases h
        exact ⟨rfl, by simpa using hx⟩

example : reported (fun _ => 1) "Linear(3, 4)\n >> Foo * Bar".toList 17 = (some 2, some 5) := by decide +kernel

end EvoTorch.Printing
