import Verif.Model.NestedArrays
/-!
C148: immutable values, copies and pickles which involve object arrays.
-/
namespace EvoTorch.NestedArrays
variable {A D : Type}

/-! ### Specification -/

mutual
/-- Nothing in the value can be modified. -/
def frozen : T A D → Bool
  | .atom _ => true
  | .arr _ w => !w
  | .ten _ ro => ro
  | .imm l => frozenAll l
  | .objs ro l => ro && frozenAll l
  | _ => false
def frozenAll : List (T A D) → Bool
  | [] => true
  | x :: xs => frozen x && frozenAll xs
end

mutual
/-- The same content in mutable containers with the identity `g`. -/
def plain (g : Nat) : T A D → T A D
  | .atom a => .atom a
  | .arr d _ => .arr d true
  | .ten d _ => .ten d false
  | .npobj _ l => .npobj g (plainAll g l)
  | .objs _ l => .npobj g (plainAll g l)
  | .list _ l => .list g (plainAll g l)
  | .imm l => .list g (plainAll g l)
  | .opaque => .opaque
def plainAll (g : Nat) : List (T A D) → List (T A D)
  | [] => []
  | x :: xs => plain g x :: plainAll g xs
end

mutual
/-- The items of every `ImmutableList` and `ObjectArray` cannot be modified: true of everything made by `as_immutable` and by assignments. -/
def Sound : T A D → Bool
  | .npobj _ l => SoundAll l
  | .list _ l => SoundAll l
  | .imm l => frozenAll l
  | .objs _ l => frozenAll l
  | _ => true
def SoundAll : List (T A D) → Bool
  | [] => true
  | x :: xs => Sound x && SoundAll xs
end

mutual
/-- There is no writeable `ObjectArray` and no object of an unknown type, except within what is immutable already. -/
def freezable : T A D → Bool
  | .npobj _ l => freezables l
  | .list _ l => freezables l
  | .objs ro _ => ro
  | .opaque => false
  | _ => true
def freezables : List (T A D) → Bool
  | [] => true
  | x :: xs => freezable x && freezables xs
end

mutual
/-- There is no `ObjectArray`. -/
def noArrays : T A D → Bool
  | .npobj _ l => noArraysAll l
  | .list _ l => noArraysAll l
  | .imm l => noArraysAll l
  | .objs _ _ => false
  | _ => true
def noArraysAll : List (T A D) → Bool
  | [] => true
  | x :: xs => noArrays x && noArraysAll xs
end

/-- Is the value an `ObjectArray`? -/
def isArray : T A D → Bool
  | .objs _ _ => true
  | _ => false

mutual
/-- Somewhere in the value, an `ObjectArray` is an item of an `ObjectArray`. -/
def nested : T A D → Bool
  | .list _ l => nestedAny l
  | .imm l => nestedAny l
  | .objs _ l => l.any isArray || nestedAny l
  | _ => false
def nestedAny : List (T A D) → Bool
  | [] => false
  | x :: xs => nested x || nestedAny xs
end

mutual
/-- There is no numpy array of objects. -/
def noObjArr : T A D → Bool
  | .npobj _ _ => false
  | .list _ l => noObjArrs l
  | .imm l => noObjArrs l
  | .objs _ l => noObjArrs l
  | _ => true
def noObjArrs : List (T A D) → Bool
  | [] => true
  | x :: xs => noObjArr x && noObjArrs xs
end

/-! ### Proofs -/

mutual
theorem thaw_frozen (g : Nat) (x : T A D) (h : frozen x = true) : thaw g x = .ok (plain g x) := by
  match x with
  | .atom a => rfl
  | .arr d w => rfl
  | .ten d ro => rfl
  | .imm l => simp only [frozen] at h; simp [thaw, plain, thawAll_frozen _ l h, Except.map]
  | .objs ro l => simp only [frozen, Bool.and_eq_true] at h; simp [thaw, plain, thawAll_frozen _ l h.2, Except.map]
  | .npobj _ l => simp [frozen] at h
  | .list _ l => simp [frozen] at h
  | .opaque => simp [frozen] at h
theorem thawAll_frozen (g : Nat) (l : List (T A D)) (h : frozenAll l = true) : thawAll g l = .ok (plainAll g l) := by
  match l with
  | [] => rfl
  | x :: xs =>
    simp only [frozenAll, Bool.and_eq_true] at h
    simp [thawAll, plainAll, thaw_frozen _ x h.1, thawAll_frozen _ xs h.2, Except.map, Except.bind]
end

mutual
theorem freeze_ok (x : T A D) (hs : Sound x = true) (h : freezable x = true) : ∃ y, freeze x = .ok y ∧ frozen y = true ∧ plain 0 y = plain 0 x := by
  match x with
  | .atom a => exact ⟨_, rfl, rfl, rfl⟩
  | .arr d w => exact ⟨_, rfl, rfl, rfl⟩
  | .ten d ro => exact ⟨_, rfl, rfl, rfl⟩
  | .imm l => exact ⟨_, rfl, by simpa [Sound, frozen] using hs, rfl⟩
  | .objs true l => exact ⟨_, rfl, by simpa [Sound, frozen] using hs, rfl⟩
  | .objs false l => simp [freezable] at h
  | .npobj _ l =>
    simp only [Sound, freezable] at hs h
    obtain ⟨m, h1, h2, h3⟩ := freezeAll_ok l hs h
    exact ⟨.objs true m, by simp [freeze, h1, Except.map], by simpa [frozen] using h2, by simp [plain, h3]⟩
  | .list _ l =>
    simp only [Sound, freezable] at hs h
    obtain ⟨m, h1, h2, h3⟩ := freezeAll_ok l hs h
    exact ⟨.imm m, by simp [freeze, h1, Except.map], by simpa [frozen] using h2, by simp [plain, h3]⟩
  | .opaque => simp [freezable] at h
theorem freezeAll_ok (l : List (T A D)) (hs : SoundAll l = true) (h : freezables l = true) :
    ∃ m, freezeAll l = .ok m ∧ frozenAll m = true ∧ plainAll 0 m = plainAll 0 l := by
  match l with
  | [] => exact ⟨[], rfl, rfl, rfl⟩
  | x :: xs =>
    simp only [SoundAll, freezables, Bool.and_eq_true] at hs h
    obtain ⟨y, h1, h2, h3⟩ := freeze_ok x hs.1 h.1
    obtain ⟨m, h4, h5, h6⟩ := freezeAll_ok xs hs.2 h.2
    exact ⟨y :: m, by simp [freezeAll, h1, h4, Except.bind, Except.map], by simp [frozenAll, h2, h5], by simp [plainAll, h3, h6]⟩
end

theorem freeze_of_frozen (x : T A D) (h : frozen x = true) : freeze x = .ok x := by
  match x with
  | .atom a => rfl
  | .arr d w => simp only [frozen, Bool.not_eq_true'] at h; subst h; rfl
  | .ten d ro => simp only [frozen] at h; subst h; rfl
  | .imm l => rfl
  | .objs ro l => simp only [frozen, Bool.and_eq_true] at h; obtain ⟨rfl, _⟩ := h; rfl
  | .npobj _ l => simp [frozen] at h
  | .list _ l => simp [frozen] at h
  | .opaque => simp [frozen] at h

/-- The errors of `as_immutable`. -/
def Refusal (e : PyErr) : Prop := e = .typeError ∨ e = .attributeError

mutual
theorem freeze_fails (x : T A D) (hs : Sound x = true) (h : freezable x = false) : ∃ e, freeze x = .error e ∧ Refusal e := by
  match x with
  | .atom a => simp [freezable] at h
  | .arr d w => simp [freezable] at h
  | .ten d ro => simp [freezable] at h
  | .imm l => simp [freezable] at h
  | .objs true l => simp [freezable] at h
  | .objs false l =>
    simp only [Sound] at hs
    exact ⟨.attributeError, by simp [freeze, thawAll_frozen _ l hs, Except.bind], .inr rfl⟩
  | .npobj _ l =>
    simp only [Sound, freezable] at hs h
    obtain ⟨e, h1, h2⟩ := freezeAll_fails l hs h
    exact ⟨e, by simp [freeze, h1, Except.map], h2⟩
  | .list _ l =>
    simp only [Sound, freezable] at hs h
    obtain ⟨e, h1, h2⟩ := freezeAll_fails l hs h
    exact ⟨e, by simp [freeze, h1, Except.map], h2⟩
  | .opaque => exact ⟨_, rfl, .inl rfl⟩
theorem freezeAll_fails (l : List (T A D)) (hs : SoundAll l = true) (h : freezables l = false) : ∃ e, freezeAll l = .error e ∧ Refusal e := by
  match l with
  | [] => simp [freezables] at h
  | x :: xs =>
    simp only [SoundAll, Bool.and_eq_true] at hs
    cases hx : freezable x with
    | false =>
      obtain ⟨e, h1, h2⟩ := freeze_fails x hs.1 hx
      exact ⟨e, by simp [freezeAll, h1, Except.bind], h2⟩
    | true =>
      simp only [freezables, hx, Bool.true_and] at h
      obtain ⟨y, h1, _⟩ := freeze_ok x hs.1 hx
      obtain ⟨e, h3, h4⟩ := freezeAll_fails xs hs.2 h
      exact ⟨e, by simp [freezeAll, h1, h3, Except.bind, Except.map], h4⟩
end

mutual
/-- Clones of immutable values which do not hold arrays in arrays. -/
theorem clone_ok (g : Nat) (x : T A D) (h : frozen x = true) (hn : nested x = false) :
    ∃ y, clone g x = .ok y ∧ plain 0 y = plain 0 x ∧ frozen y = noArrays x ∧ (isArray x = false → freeze y = .ok y) ∧
      (isArray x = false → noArrays y = noArrays x) := by
  match x with
  | .atom a => exact ⟨_, rfl, rfl, rfl, fun _ => rfl, fun _ => rfl⟩
  | .arr d w => simp only [frozen, Bool.not_eq_true'] at h; subst h; exact ⟨_, rfl, rfl, rfl, fun _ => rfl, fun _ => rfl⟩
  | .ten d ro => simp only [frozen] at h; subst h; exact ⟨_, rfl, rfl, rfl, fun _ => rfl, fun _ => rfl⟩
  | .imm l =>
    simp only [frozen, nested] at h hn
    obtain ⟨m, h1, h2, h3, h4⟩ := cloneAll_ok g l h hn
    exact ⟨.imm m, by simp [clone, h1, Except.map], by simp [plain, h2], by simpa [frozen, noArrays] using h3, fun _ => rfl,
      fun _ => by simpa [noArrays] using h4⟩
  | .objs ro l =>
    simp only [frozen, nested, Bool.and_eq_true, Bool.or_eq_false_iff] at h hn
    obtain ⟨m, h1, h2⟩ := cloneItems_ok g l h.2 hn.1 hn.2
    exact ⟨.objs false m, by simp [clone, h1, Except.map], by simp [plain, h2], by simp [frozen, noArrays], fun h => by simp [isArray] at h,
      fun h => by simp [isArray] at h⟩
  | .npobj _ l => simp [frozen] at h
  | .list _ l => simp [frozen] at h
  | .opaque => simp [frozen] at h
theorem cloneAll_ok (g : Nat) (l : List (T A D)) (h : frozenAll l = true) (hn : nestedAny l = false) :
    ∃ m, cloneAll g l = .ok m ∧ plainAll 0 m = plainAll 0 l ∧ frozenAll m = noArraysAll l ∧ noArraysAll m = noArraysAll l := by
  match l with
  | [] => exact ⟨[], rfl, rfl, rfl, rfl⟩
  | x :: xs =>
    simp only [frozenAll, nestedAny, Bool.and_eq_true, Bool.or_eq_false_iff] at h hn
    obtain ⟨y, h1, h2, h3, _, h7⟩ := clone_ok g x h.1 hn.1
    obtain ⟨m, h4, h5, h6, h8⟩ := cloneAll_ok g xs h.2 hn.2
    refine ⟨y :: m, by simp [cloneAll, h1, h4, Except.bind, Except.map], by simp [plainAll, h2, h5], by simp [frozenAll, noArraysAll, h3, h6], ?_⟩
    cases ha : isArray x with
    | false => simp [noArraysAll, h7 ha, h8]
    | true =>
      match x, ha with
      | .objs ro l, _ =>
        have : isArray y = true := by
          simp only [clone] at h1
          cases hc : cloneItems g l with
          | error e => rw [hc] at h1; cases h1
          | ok k => rw [hc] at h1; cases h1; rfl
        match y, this with
        | .objs _ _, _ => simp [noArraysAll, noArrays]
theorem cloneItems_ok (g : Nat) (l : List (T A D)) (h : frozenAll l = true) (ha : l.any isArray = false) (hn : nestedAny l = false) :
    ∃ m, cloneItems g l = .ok m ∧ plainAll 0 m = plainAll 0 l := by
  match l with
  | [] => exact ⟨[], rfl, rfl⟩
  | x :: xs =>
    simp only [frozenAll, nestedAny, Bool.and_eq_true, Bool.or_eq_false_iff, List.any_cons] at h hn ha
    obtain ⟨y, h1, h2, _, h3, _⟩ := clone_ok g x h.1 hn.1
    obtain ⟨m, h4, h5⟩ := cloneItems_ok g xs h.2 ha.2 hn.2
    exact ⟨y :: m, by simp [cloneItems, h1, h3 ha.1, h4, Except.bind, Except.map], by simp [plainAll, h2, h5]⟩
end

mutual
/-- Cloning an immutable value either works, with a result that has a mutable copy, or is an AttributeError because of an array in an array. -/
theorem clone_cases (g : Nat) (x : T A D) (h : frozen x = true) :
    (∃ y z, clone g x = .ok y ∧ thaw 0 y = .ok z ∧ nested x = false ∧ (freeze y = if isArray x then .error .attributeError else .ok y)) ∨
      (clone g x = .error .attributeError ∧ nested x = true) := by
  match x with
  | .atom a => exact .inl ⟨_, _, rfl, rfl, rfl, rfl⟩
  | .arr d w => simp only [frozen, Bool.not_eq_true'] at h; subst h; exact .inl ⟨_, _, rfl, rfl, rfl, rfl⟩
  | .ten d ro => simp only [frozen] at h; subst h; exact .inl ⟨_, _, rfl, rfl, rfl, rfl⟩
  | .imm l =>
    simp only [frozen] at h
    rcases cloneAll_cases g l h with ⟨m, k, h1, h2, h3⟩ | ⟨h1, h2⟩
    · exact .inl ⟨.imm m, .list 0 k, by simp [clone, h1, Except.map], by simp [thaw, h2, Except.map], by simpa [nested] using h3, rfl⟩
    · exact .inr ⟨by simp [clone, h1, Except.map], by simpa [nested] using h2⟩
  | .objs ro l =>
    simp only [frozen, Bool.and_eq_true] at h
    rcases cloneItems_cases g l h.2 with ⟨m, k, h1, h2, h3⟩ | ⟨h1, h2⟩
    · exact .inl ⟨.objs false m, .npobj 0 k, by simp [clone, h1, Except.map], by simp [thaw, h2, Except.map], by simp only [nested, h3],
        by simp [isArray, freeze, h2, Except.bind]⟩
    · exact .inr ⟨by simp [clone, h1, Except.map], by simp only [nested, h2]⟩
  | .npobj _ l => simp [frozen] at h
  | .list _ l => simp [frozen] at h
  | .opaque => simp [frozen] at h
theorem cloneAll_cases (g : Nat) (l : List (T A D)) (h : frozenAll l = true) :
    (∃ m k, cloneAll g l = .ok m ∧ thawAll 0 m = .ok k ∧ nestedAny l = false) ∨ (cloneAll g l = .error .attributeError ∧ nestedAny l = true) := by
  match l with
  | [] => exact .inl ⟨[], [], rfl, rfl, rfl⟩
  | x :: xs =>
    simp only [frozenAll, Bool.and_eq_true] at h
    rcases clone_cases g x h.1 with ⟨y, z, h1, h2, h3, _⟩ | ⟨h1, h2⟩
    · rcases cloneAll_cases g xs h.2 with ⟨m, k, h4, h5, h6⟩ | ⟨h4, h5⟩
      · exact .inl ⟨y :: m, z :: k, by simp [cloneAll, h1, h4, Except.bind, Except.map], by simp [thawAll, h2, h5, Except.bind, Except.map], by simp [nestedAny, h3, h6]⟩
      · exact .inr ⟨by simp [cloneAll, h1, h4, Except.bind, Except.map], by simp [nestedAny, h5]⟩
    · exact .inr ⟨by simp [cloneAll, h1, Except.bind], by simp [nestedAny, h2]⟩
theorem cloneItems_cases (g : Nat) (l : List (T A D)) (h : frozenAll l = true) :
    (∃ m k, cloneItems g l = .ok m ∧ thawAll 0 m = .ok k ∧ (l.any isArray || nestedAny l) = false) ∨
      (cloneItems g l = .error .attributeError ∧ (l.any isArray || nestedAny l) = true) := by
  match l with
  | [] => exact .inl ⟨[], [], rfl, rfl, rfl⟩
  | x :: xs =>
    simp only [frozenAll, Bool.and_eq_true] at h
    rcases clone_cases g x h.1 with ⟨y, z, h1, h2, h3, h7⟩ | ⟨h1, h2⟩
    · cases ha : isArray x with
      | true =>
        rw [ha] at h7
        exact .inr ⟨by simp [cloneItems, h1, h7, Except.bind], by simp [ha]⟩
      | false =>
        rw [ha] at h7
        simp only [Bool.false_eq_true, if_false] at h7
        rcases cloneItems_cases g xs h.2 with ⟨m, k, h4, h5, h6⟩ | ⟨h4, h5⟩
        · rw [Bool.or_eq_false_iff] at h6
          exact .inl ⟨y :: m, z :: k, by simp [cloneItems, h1, h4, h7, Except.bind, Except.map], by simp [thawAll, h2, h5, Except.bind, Except.map],
            by simp [nestedAny, h3, ha, h6.2, List.any_cons]; simpa using h6.1⟩
        · refine .inr ⟨by simp [cloneItems, h1, h4, h7, Except.bind, Except.map], ?_⟩
          simp only [nestedAny, List.any_cons, ha, h3, Bool.false_or]; exact h5
    · exact .inr ⟨by simp [cloneItems, h1, Except.bind], by simp [nestedAny, h2]⟩
end

mutual
/-- All lists and numpy arrays of objects in the value have the identity `g`. -/
def made (g : Nat) : T A D → Bool
  | .npobj i l => decide (i = g) && madeAll g l
  | .list i l => decide (i = g) && madeAll g l
  | .imm l => madeAll g l
  | .objs _ l => madeAll g l
  | _ => true
def madeAll (g : Nat) : List (T A D) → Bool
  | [] => true
  | x :: xs => made g x && madeAll g xs
end

theorem map_ok {α β : Type} {r : Except PyErr α} {f : α → β} {b : β} (h : r.map f = .ok b) : ∃ a, r = .ok a ∧ b = f a := by
  cases r with
  | error e => cases h
  | ok a => cases h; exact ⟨a, rfl, rfl⟩

theorem bind_ok {α β : Type} {r : Except PyErr α} {f : α → Except PyErr β} {b : β} (h : r.bind f = .ok b) : ∃ a, r = .ok a ∧ f a = .ok b := by
  cases r with
  | error e => cases h
  | ok a => exact ⟨a, rfl, h⟩

mutual
theorem freeze_made (g : Nat) (x y : T A D) (h : made g x = true) (hy : freeze x = .ok y) : made g y = true := by
  match x with
  | .atom a => cases hy; rfl
  | .arr d w => cases hy; rfl
  | .ten d ro => cases hy; rfl
  | .imm l => cases hy; exact h
  | .objs true l => cases hy; exact h
  | .objs false l => obtain ⟨_, _, h2⟩ := bind_ok hy; cases h2
  | .npobj i l =>
    obtain ⟨m, h1, rfl⟩ := map_ok hy
    simp only [made, Bool.and_eq_true] at h
    exact freezeAll_made g l m h.2 h1
  | .list i l =>
    obtain ⟨m, h1, rfl⟩ := map_ok hy
    simp only [made, Bool.and_eq_true] at h
    exact freezeAll_made g l m h.2 h1
  | .opaque => cases hy
theorem freezeAll_made (g : Nat) (l m : List (T A D)) (h : madeAll g l = true) (hm : freezeAll l = .ok m) : madeAll g m = true := by
  match l with
  | [] => cases hm; rfl
  | x :: xs =>
    simp only [madeAll, Bool.and_eq_true] at h
    obtain ⟨y, h1, h2⟩ := bind_ok hm
    obtain ⟨k, h3, rfl⟩ := map_ok h2
    simp [madeAll, freeze_made g x y h.1 h1, freezeAll_made g xs k h.2 h3]
end

mutual
theorem clone_made (g : Nat) (x y : T A D) (h : noObjArr x = true) (hy : clone g x = .ok y) : made g y = true := by
  match x with
  | .atom a => cases hy; rfl
  | .arr d w => cases hy; rfl
  | .ten d ro => cases hy; rfl
  | .opaque => cases hy; rfl
  | .npobj _ l => simp [noObjArr] at h
  | .list _ l =>
    obtain ⟨m, h1, rfl⟩ := map_ok hy
    simp only [noObjArr] at h
    simp [made, cloneAll_made g l m h h1]
  | .imm l =>
    obtain ⟨m, h1, rfl⟩ := map_ok hy
    simp only [noObjArr] at h
    simp [made, cloneAll_made g l m h h1]
  | .objs _ l =>
    obtain ⟨m, h1, rfl⟩ := map_ok hy
    simp only [noObjArr] at h
    simp [made, cloneItems_made g l m h h1]
theorem cloneAll_made (g : Nat) (l m : List (T A D)) (h : noObjArrs l = true) (hm : cloneAll g l = .ok m) : madeAll g m = true := by
  match l with
  | [] => cases hm; rfl
  | x :: xs =>
    simp only [noObjArrs, Bool.and_eq_true] at h
    obtain ⟨y, h1, h2⟩ := bind_ok hm
    obtain ⟨k, h3, rfl⟩ := map_ok h2
    simp [madeAll, clone_made g x y h.1 h1, cloneAll_made g xs k h.2 h3]
theorem cloneItems_made (g : Nat) (l m : List (T A D)) (h : noObjArrs l = true) (hm : cloneItems g l = .ok m) : madeAll g m = true := by
  match l with
  | [] => cases hm; rfl
  | x :: xs =>
    simp only [noObjArrs, Bool.and_eq_true] at h
    obtain ⟨y, h1, h2⟩ := bind_ok hm
    obtain ⟨z, h4, h5⟩ := bind_ok h1
    obtain ⟨k, h3, rfl⟩ := map_ok h2
    simp [madeAll, freeze_made g z y (clone_made g x z h.1 h4) h5, cloneItems_made g xs k h.2 h3]
end

mutual
theorem plain_made (g : Nat) (x : T A D) : made g (plain g x) = true := by
  match x with
  | .atom a => rfl
  | .arr d w => rfl
  | .ten d ro => rfl
  | .opaque => rfl
  | .npobj _ l => simp [plain, made, plainAll_made g l]
  | .list _ l => simp [plain, made, plainAll_made g l]
  | .imm l => simp [plain, made, plainAll_made g l]
  | .objs _ l => simp [plain, made, plainAll_made g l]
theorem plainAll_made (g : Nat) (l : List (T A D)) : madeAll g (plainAll g l) = true := by
  match l with
  | [] => rfl
  | x :: xs => simp [plainAll, madeAll, plain_made g x, plainAll_made g xs]
end

mutual
theorem pickled_frozen (x : T A D) (h : frozen x = true) : reseal (pickled x) = x := by
  match x with
  | .atom a => rfl
  | .arr d w => simp only [frozen, Bool.not_eq_true'] at h; subst h; rfl
  | .ten d ro => rfl
  | .imm l => simp only [frozen] at h; simp [pickled, reseal, pickledAll_frozen l h]
  | .objs ro l => simp only [frozen, Bool.and_eq_true] at h; simp [pickled, reseal, pickledAll_frozen l h.2]
  | .npobj _ l => simp [frozen] at h
  | .list _ l => simp [frozen] at h
  | .opaque => simp [frozen] at h
theorem pickledAll_frozen (l : List (T A D)) (h : frozenAll l = true) : (pickledAll l).map reseal = l := by
  match l with
  | [] => rfl
  | x :: xs =>
    simp only [frozenAll, Bool.and_eq_true] at h
    simp [pickledAll, pickled_frozen x h.1, pickledAll_frozen xs h.2]
end

mutual
/-- Nothing in the value is read-only: what a mutable copy should be. -/
def mutableDeep : T A D → Bool
  | .atom _ => true
  | .arr _ w => w
  | .ten _ ro => !ro
  | .npobj _ l => mutableAll l
  | .list _ l => mutableAll l
  | .imm _ => false
  | .objs _ _ => false
  | .opaque => true
def mutableAll : List (T A D) → Bool
  | [] => true
  | x :: xs => mutableDeep x && mutableAll xs
end

mutual
theorem plain_mutable (g : Nat) (x : T A D) : mutableDeep (plain g x) = true := by
  match x with
  | .atom a => rfl
  | .arr d w => rfl
  | .ten d ro => rfl
  | .opaque => rfl
  | .npobj _ l => simpa [plain, mutableDeep] using plainAll_mutable g l
  | .list _ l => simpa [plain, mutableDeep] using plainAll_mutable g l
  | .imm l => simpa [plain, mutableDeep] using plainAll_mutable g l
  | .objs _ l => simpa [plain, mutableDeep] using plainAll_mutable g l
theorem plainAll_mutable (g : Nat) (l : List (T A D)) : mutableAll (plainAll g l) = true := by
  match l with
  | [] => rfl
  | x :: xs => simp [plainAll, mutableAll, plain_mutable g x, plainAll_mutable g xs]
end

mutual
theorem nested_of_noArrays (x : T A D) (h : noArrays x = true) : nested x = false := by
  match x with
  | .atom a => rfl
  | .arr d w => rfl
  | .ten d ro => rfl
  | .opaque => rfl
  | .npobj _ l => rfl
  | .list _ l => simp only [noArrays] at h; simpa [nested] using nestedAny_of_noArrays l h
  | .imm l => simp only [noArrays] at h; simpa [nested] using nestedAny_of_noArrays l h
  | .objs _ l => simp [noArrays] at h
theorem nestedAny_of_noArrays (l : List (T A D)) (h : noArraysAll l = true) : nestedAny l = false := by
  match l with
  | [] => rfl
  | x :: xs => simp only [noArraysAll, Bool.and_eq_true] at h; simp [nestedAny, nested_of_noArrays x h.1, nestedAny_of_noArrays xs h.2]
end

/-! ### Theorems -/

/-- C148: `as_immutable` of a value whose object arrays are all read-only gives a value with the same content in which nothing can be modified (numpy arrays of objects become read-only object arrays),
and is the identity on such values. Partial: writeable object arrays are refused (see `C148_violated_writeable`). -/
theorem C148_immutable_partial (x : T A D) (hs : Sound x = true) (h : freezable x = true) :
    ∃ y, freeze x = .ok y ∧ frozen y = true ∧ plain 0 y = plain 0 x ∧ freeze y = .ok y := by
  obtain ⟨y, h1, h2, h3⟩ := freeze_ok x hs h
  exact ⟨y, h1, h2, h3, freeze_of_frozen y h2⟩

/-- C148: everything else is refused, with TypeError or AttributeError. -/
theorem C148_refused (x : T A D) (hs : Sound x = true) (h : freezable x = false) : ∃ e, freeze x = .error e ∧ (e = .typeError ∨ e = .attributeError) := freeze_fails x hs h

/-- C148: a mutable copy of an immutable value has the same content in new containers, and nothing in it is read-only; object arrays become numpy arrays of objects. -/
theorem C148_mutable (g : Nat) (x : T A D) (h : frozen x = true) : thaw g x = .ok (plain g x) ∧ mutableDeep (plain g x) = true ∧ made g (plain g x) = true :=
  ⟨thaw_frozen g x h, plain_mutable g x, plain_made g x⟩

/-- C148, partial: the copies (`copy`, `deepcopy`, `clone(preserve_read_only=True)`, `deep_clone`) of an immutable value which holds no object array have the same content and are immutable. -/
theorem C148_copies_partial (g : Nat) (x : T A D) (h : frozen x = true) (hn : noArrays x = true) :
    ∃ y, clone g x = .ok y ∧ plain 0 y = plain 0 x ∧ frozen y = true := by
  obtain ⟨y, h1, h2, h3, _⟩ := clone_ok g x h (nested_of_noArrays x hn)
  exact ⟨y, h1, h2, by rw [h3, hn]⟩

/-- C148: a pickled and loaded immutable container or object array is the same, and still immutable, numpy arrays in it included. -/
theorem C148_pickled (x : T A D) (h : frozen x = true) (hx : ∀ d w, x ≠ .arr d w) : pickled x = x := by
  have := pickled_frozen x h
  match x, this with
  | .atom a, _ => rfl
  | .arr d w, _ => exact absurd rfl (hx d w)
  | .ten d ro, _ => rfl
  | .imm l, e => simpa [pickled, reseal] using e
  | .objs ro l, e => simpa [pickled, reseal] using e
  | .npobj _ l, _ => simp [frozen] at h
  | .list _ l, _ => simp [frozen] at h
  | .opaque, _ => rfl

/-- C148, partial: without numpy arrays of objects, all mutable containers of a deep clone are new. -/
theorem C148_independent_partial (g : Nat) (x y : T A D) (h : noObjArr x = true) (hy : clone g x = .ok y) : made g y = true := clone_made g x y h hy

/-! ### What does not hold -/

/-- C148 fails for writeable object arrays: making one immutable is an AttributeError, whatever it holds; so it can be put neither into another object array nor into an immutable list. -/
theorem C148_violated_writeable (l : List (T A D)) (h : frozenAll l = true) :
    freeze (.objs false l) = .error .attributeError ∧ ∀ i rest, freeze (.list i (.objs false l :: rest)) = .error .attributeError := by
  simp [freeze, freezeAll, thawAll_frozen _ l h, Except.bind, Except.map]

/-- C148 fails for copies of read-only object arrays: where an immutable value holds an object array (and none in another), its copy is not immutable. The copy of a read-only object array is
writeable. -/
theorem C148_violated_copy (g : Nat) (x : T A D) (h : frozen x = true) (ha : noArrays x = false) (hn : nested x = false) :
    ∃ y, clone g x = .ok y ∧ plain 0 y = plain 0 x ∧ frozen y = false := by
  obtain ⟨y, h1, h2, h3, _⟩ := clone_ok g x h hn
  exact ⟨y, h1, h2, by rw [h3, ha]⟩

theorem C148_violated_copy_writeable (g : Nat) (l : List (T A D)) (h : frozenAll l = true) (ha : l.any isArray = false) (hn : nestedAny l = false) :
    ∃ m, clone g (.objs true l) = .ok (.objs false m) ∧ plainAll 0 m = plainAll 0 l := by
  obtain ⟨m, h1, h2⟩ := cloneItems_ok g l h ha hn
  exact ⟨m, by simp [clone, h1, Except.map], h2⟩

/-- C148 fails for arrays of arrays: an immutable value can be copied only if no object array in it is an item of an object array; otherwise all its copying methods raise AttributeError. -/
theorem C148_violated_nested (g : Nat) (x : T A D) (h : frozen x = true) :
    (nested x = true → clone g x = .error .attributeError) ∧ (nested x = false → ∃ y, clone g x = .ok y) := by
  rcases clone_cases g x h with ⟨y, _, h1, _, h3, _⟩ | ⟨h1, h2⟩
  · exact ⟨fun hn => (by rw [h3] at hn; cases hn), fun _ => ⟨y, h1⟩⟩
  · exact ⟨fun _ => h1, fun hn => (by rw [h2] at hn; cases hn)⟩

/-- C148 fails for deep clones of numpy arrays of objects: the clone refers to the lists of the original. -/
theorem C148_violated_shared (g i j : Nat) (l : List (T A D)) : clone g (.npobj i [.list j l]) = .ok (.npobj g [.list j l]) := rfl

/-- C148 fails for read-only views: `as_immutable` of a read-only view of a writeable array is the view itself, and an assignment to the array changes what it holds. -/
theorem C148_violated_view :
    ∃ (h h' : ObjectArray.Heap Nat) (view : Nat), (ObjectArray.step some 0 h (.readOnlyView 0)).state = h' ∧ asImmutableArray h' view = .ok view ∧
      (h'.arrays[view]?.bind fun a => h'.read a 0) = some 0 ∧
      (let h'' := (ObjectArray.step some 0 h' (.setInt 0 0 7)).state
       (h''.arrays[view]?.bind fun a => h''.read a 0) = some 7) :=
  ⟨(ObjectArray.step some 0 ⟨[], []⟩ (.new 2)).state, _, 1, rfl, rfl, rfl, rfl⟩

/-! ### The hypotheses are met -/

example : Sound (.list 5 [.npobj 6 [.arr 3 true, .list 5 [.atom 1]], .imm [.objs true [.ten 4 true]]] : T Nat Nat) = true ∧
    freezable (.list 5 [.npobj 6 [.arr 3 true, .list 5 [.atom 1]], .imm [.objs true [.ten 4 true]]] : T Nat Nat) = true ∧
    freeze (.list 5 [.npobj 6 [.arr 3 true, .list 5 [.atom 1]], .imm [.objs true [.ten 4 true]]] : T Nat Nat) =
      .ok (.imm [.objs true [.arr 3 false, .imm [.atom 1]], .imm [.objs true [.ten 4 true]]]) := ⟨rfl, rfl, rfl⟩

example : Sound (.list 5 [.objs false [.atom 1]] : T Nat Nat) = true ∧ freezable (.list 5 [.objs false [.atom 1]] : T Nat Nat) = false := ⟨rfl, rfl⟩

example : frozen (.imm [.arr 3 false, .imm [.atom 1]] : T Nat Nat) = true ∧ noArrays (.imm [.arr 3 false, .imm [.atom 1]] : T Nat Nat) = true ∧
    noObjArr (.imm [.arr 3 false, .imm [.atom 1]] : T Nat Nat) = true := ⟨rfl, rfl, rfl⟩

example : frozen (.imm [.objs true [.arr 3 false]] : T Nat Nat) = true ∧ noArrays (.imm [.objs true [.arr 3 false]] : T Nat Nat) = false ∧
    nested (.imm [.objs true [.arr 3 false]] : T Nat Nat) = false ∧ clone 9 (.imm [.objs true [.arr 3 false]] : T Nat Nat) = .ok (.imm [.objs false [.arr 3 false]]) := ⟨rfl, rfl, rfl, rfl⟩

example : freeze (.npobj 6 [.npobj 6 [.atom 1]] : T Nat Nat) = .ok (.objs true [.objs true [.atom 1]]) ∧ frozen (.objs true [.objs true [.atom 1]] : T Nat Nat) = true ∧
    nested (.objs true [.objs true [.atom 1]] : T Nat Nat) = true := ⟨rfl, rfl, rfl⟩

end EvoTorch.NestedArrays
