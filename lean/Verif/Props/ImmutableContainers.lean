import Verif.Model.ImmutableContainers
import Mathlib.Tactic.Linarith
/-!
C112: the immutable containers behave as the containers they were made from.

Specification: `plain v` is the ordinary Python value with the same contents (immutable containers as ordinary ones, tuples as lists, arrays modifiable).
-/
namespace EvoTorch.Immutable

/-! ### Specification -/

mutual
/-- The ordinary Python value with the same contents; tuples are read as lists, because `ImmutableList` does not remember which of the two it came from. -/
def plain : V → V
  | .atom a => .atom a
  | .arr d _ => .arr d true
  | .tuple l => .list (plainAll l)
  | .list l => .list (plainAll l)
  | .immList l => .list (plainAll l)
  | .set l => .set l
  | .immSet l => .set (l.map .atom)
  | .dict l => .dict (plainItems l)
  | .immDict l => .dict (plainItems l)
def plainAll : List V → List V
  | [] => []
  | v :: vs => plain v :: plainAll vs
def plainItems : List (Key × V) → List (Key × V)
  | [] => []
  | (k, v) :: rest => (k, plain v) :: plainItems rest
end

/-- No two keys are equal. -/
def distinct (l : List (Key × V)) : Prop := l.Pairwise fun a b => Key.eq a.1 b.1 = false

mutual
/-- A value without arrays whose dictionaries have pairwise different keys (as those of Python have). -/
def Good : V → Prop
  | .atom _ => True
  | .arr _ _ => False
  | .tuple l => GoodAll l
  | .list l => GoodAll l
  | .immList l => GoodAll l
  | .set _ => True
  | .immSet _ => True
  | .dict l => distinct l ∧ GoodItems l
  | .immDict l => distinct l ∧ GoodItems l
def GoodAll : List V → Prop
  | [] => True
  | v :: vs => Good v ∧ GoodAll vs
def GoodItems : List (Key × V) → Prop
  | [] => True
  | (_, v) :: rest => Good v ∧ GoodItems rest
end

mutual
/-- Immutable through and through. -/
def frozen : V → Bool
  | .atom _ => true
  | .arr _ w => !w
  | .immList l => frozenAll l
  | .immSet _ => true
  | .immDict l => frozenItems l
  | .tuple _ => false
  | .list _ => false
  | .set _ => false
  | .dict _ => false
def frozenAll : List V → Bool
  | [] => true
  | v :: vs => frozen v && frozenAll vs
def frozenItems : List (Key × V) → Bool
  | [] => true
  | (_, v) :: rest => frozen v && frozenItems rest
end

mutual
/-- Immutable containers which occur in the value are immutable through and through. -/
def Sound : V → Prop
  | .atom _ => True
  | .arr _ _ => True
  | .tuple l => SoundAll l
  | .list l => SoundAll l
  | .set _ => True
  | .dict l => SoundItems l
  | .immList l => frozenAll l = true
  | .immSet _ => True
  | .immDict l => frozenItems l = true
def SoundAll : List V → Prop
  | [] => True
  | v :: vs => Sound v ∧ SoundAll vs
def SoundItems : List (Key × V) → Prop
  | [] => True
  | (_, v) :: rest => Sound v ∧ SoundItems rest
end

mutual
/-- Two ordinary values in which, going through both side by side, lists meet only lists and no array is met. -/
def fits : V → V → Bool
  | .list l, w => match w with
    | .list m => fitsAll l m
    | _ => false
  | .dict l, w => match w with
    | .dict m => fitsItems l m
    | .atom _ => true
    | .set _ => true
    | _ => false
  | .atom _, w => match w with
    | .atom _ => true
    | .set _ => true
    | .dict _ => true
    | _ => false
  | .set _, w => match w with
    | .atom _ => true
    | .set _ => true
    | .dict _ => true
    | _ => false
  | .arr _ _, _ => false
  | .tuple _, _ => false
  | .immList _, _ => false
  | .immSet _, _ => false
  | .immDict _, _ => false
def fitsAll : List V → List V → Bool
  | x :: xs, y :: ys => fits x y && fitsAll xs ys
  | [], _ => true
  | _ :: _, [] => true
def fitsItems : List (Key × V) → List (Key × V) → Bool
  | [], _ => true
  | (k, v) :: rest, m => (match find m k with
    | none => true
    | some w => fits v w) && fitsItems rest m
end

mutual
/-- A key made of ints, strings and tuples of such. -/
def keyOk : Key → Bool
  | .atom (.int _) => true
  | .atom (.str _) => true
  | .atom .none => false
  | .atom (.bool _) => false
  | .atom (.float _) => false
  | .tuple l => keysOk l
def keysOk : List Key → Bool
  | [] => true
  | k :: ks => keyOk k && keysOk ks
end

/-- A set without tuples. -/
def elemsOk (l : List Key) : Bool := l.all fun k => match k with
  | .atom _ => true
  | .tuple _ => false

mutual
/-- Keys are ints, strings and tuples of such; sets have no tuples (outside of parts which are immutable already). -/
def freezable : V → Bool
  | .atom _ => true
  | .arr _ _ => true
  | .tuple l => freezableAll l
  | .list l => freezableAll l
  | .set l => elemsOk l
  | .dict l => freezableItems l
  | .immList _ => true
  | .immSet _ => true
  | .immDict _ => true
def freezableAll : List V → Bool
  | [] => true
  | v :: vs => freezable v && freezableAll vs
def freezableItems : List (Key × V) → Bool
  | [] => true
  | (k, v) :: rest => freezable v && keyOk k && freezableItems rest
end

/-! ### Keys -/

theorem Atom.eq_refl (a : Atom) : a.eq a = true := by
  unfold Atom.eq; cases h : a.num <;> simp

theorem Atom.eq_symm {a b : Atom} (h : a.eq b = true) : b.eq a = true := by
  unfold Atom.eq at *
  cases ha : a.num <;> cases hb : b.num <;> rw [ha, hb] at h <;> simp_all

theorem Atom.eq_trans {a b c : Atom} (h : a.eq b = true) (h' : b.eq c = true) : a.eq c = true := by
  unfold Atom.eq at *
  cases ha : a.num <;> cases hb : b.num <;> cases hc : c.num <;> rw [ha, hb] at h <;> rw [hb, hc] at h' <;> simp_all

mutual
theorem Key.eq_refl : ∀ k : Key, Key.eq k k = true
  | .atom a => by simp [Key.eq, Atom.eq_refl]
  | .tuple l => by simp [Key.eq, Key.eqs_refl l]
theorem Key.eqs_refl : ∀ l : List Key, Key.eqs l l = true
  | [] => by simp [Key.eqs]
  | k :: ks => by simp [Key.eqs, Key.eq_refl k, Key.eqs_refl ks]
end

mutual
theorem Key.eq_symm : ∀ (k k' : Key), Key.eq k k' = true → Key.eq k' k = true
  | .atom a, .atom b => by simpa [Key.eq] using Atom.eq_symm
  | .tuple l, .tuple m => by simpa [Key.eq] using Key.eqs_symm l m
  | .atom _, .tuple _ => by simp [Key.eq]
  | .tuple _, .atom _ => by simp [Key.eq]
theorem Key.eqs_symm : ∀ (l m : List Key), Key.eqs l m = true → Key.eqs m l = true
  | [], [] => by simp [Key.eqs]
  | [], _ :: _ => by simp [Key.eqs]
  | _ :: _, [] => by simp [Key.eqs]
  | x :: xs, y :: ys => by
    simp only [Key.eqs, Bool.and_eq_true]
    exact fun h => ⟨Key.eq_symm x y h.1, Key.eqs_symm xs ys h.2⟩
end

theorem Key.eq_atom_tuple (a : Atom) (l : List Key) : Key.eq (.atom a) (.tuple l) = false := by rw [Key.eq]
theorem Key.eq_tuple_atom (a : Atom) (l : List Key) : Key.eq (.tuple l) (.atom a) = false := by rw [Key.eq]

mutual
theorem Key.eq_trans : ∀ (a b c : Key), Key.eq a b = true → Key.eq b c = true → Key.eq a c = true
  | .atom a, .atom b, .atom c => by simpa [Key.eq] using Atom.eq_trans
  | .tuple l, .tuple m, .tuple n => by simpa [Key.eq] using Key.eqs_trans l m n
  | .atom a, .tuple l, _ => fun h => by rw [Key.eq_atom_tuple] at h; cases h
  | .tuple l, .atom a, _ => fun h => by rw [Key.eq_tuple_atom] at h; cases h
  | .atom _, .atom b, .tuple l => fun _ h => by rw [Key.eq_atom_tuple] at h; cases h
  | .tuple _, .tuple l, .atom a => fun _ h => by rw [Key.eq_tuple_atom] at h; cases h
theorem Key.eqs_trans : ∀ (a b c : List Key), Key.eqs a b = true → Key.eqs b c = true → Key.eqs a c = true
  | [], [], [] => by simp [Key.eqs]
  | [], [], _ :: _ => by simp [Key.eqs]
  | [], _ :: _, _ => by simp [Key.eqs]
  | _ :: _, [], _ => by simp [Key.eqs]
  | _ :: _, _ :: _, [] => by simp [Key.eqs]
  | x :: xs, y :: ys, z :: zs => by
    simp only [Key.eqs, Bool.and_eq_true]
    exact fun h h' => ⟨Key.eq_trans x y z h.1 h'.1, Key.eqs_trans xs ys zs h.2 h'.2⟩
end

theorem Key.eq_congr {a b : Key} (h : Key.eq a b = true) (c : Key) : Key.eq a c = Key.eq b c := by
  apply Bool.eq_iff_iff.mpr
  exact ⟨fun h' => Key.eq_trans _ _ _ (Key.eq_symm _ _ h) h', fun h' => Key.eq_trans _ _ _ h h'⟩

mutual
theorem acceptable_eq : ∀ k : Key, acceptable k = if keyOk k then .ok k else .error .typeError
  | .atom (.int _) => by simp [acceptable, keyOk]
  | .atom (.str _) => by simp [acceptable, keyOk]
  | .atom .none => by simp [acceptable, keyOk]
  | .atom (.bool _) => by simp [acceptable, keyOk]
  | .atom (.float _) => by simp [acceptable, keyOk]
  | .tuple l => by
    rw [acceptable, keyOk, acceptables_eq l]
    split <;> rfl
theorem acceptables_eq : ∀ l : List Key, acceptables l = if keysOk l then .ok l else .error .typeError
  | [] => by simp [acceptables, keysOk]
  | k :: ks => by
    rw [acceptables, keysOk, acceptable_eq k, acceptables_eq ks]
    cases keyOk k <;> cases keysOk ks <;> rfl
end

/-! ### Dictionaries -/

theorem find_insert : ∀ (d : List (Key × V)) (k : Key) (v : V) (k' : Key), find (insert d k v) k' = if Key.eq k k' then some v else find d k'
  | [], k, v, k' => by simp [insert, find]
  | (k0, v0) :: rest, k, v, k' => by
    rw [insert]
    split
    · next h =>
      rw [find, find, Key.eq_congr h k']
      split <;> rfl
    · next h =>
      rw [find, find, find_insert rest k v k']
      by_cases h0 : Key.eq k0 k' = true
      · have : Key.eq k k' = false := by
          by_contra h1
          exact h (Key.eq_trans _ _ _ h0 (Key.eq_symm _ _ (by simpa using h1)))
        simp [h0, this]
      · simp [h0]

theorem find_none_iff (d : List (Key × V)) (k : Key) : find d k = none ↔ ∀ kv ∈ d, Key.eq kv.1 k = false := by
  induction d with
  | nil => simp [find]
  | cons kv rest ih =>
    obtain ⟨k0, v0⟩ := kv
    rw [find]
    by_cases h : Key.eq k0 k = true
    · simp [h]
    · simp [h, ih]

theorem find_mem {d : List (Key × V)} (hd : distinct d) {k : Key} {v : V} (h : (k, v) ∈ d) : find d k = some v := by
  induction d with
  | nil => simp at h
  | cons kv rest ih =>
    obtain ⟨k0, v0⟩ := kv
    rw [distinct, List.pairwise_cons] at hd
    rw [find]
    rcases List.mem_cons.1 h with h | h
    · cases h; simp [Key.eq_refl]
    · have := hd.1 _ h
      simp only at this
      simp [this, ih hd.2 h]

/-- `d[k] = v` for a new key. -/
theorem insert_new : ∀ (d : List (Key × V)) (k : Key) (v : V), (∀ kv ∈ d, Key.eq kv.1 k = false) → insert d k v = d ++ [(k, v)]
  | [], _, _, _ => rfl
  | (k0, v0) :: rest, k, v, h => by
    have h0 := h (k0, v0) (by simp)
    simp only at h0
    rw [insert]
    simp [h0, insert_new rest k v fun kv hkv => h kv (by simp [hkv])]

theorem insertAll_distinct (items : List (Key × V)) : ∀ acc, distinct (acc ++ items) → insertAll acc items = acc ++ items := by
  induction items with
  | nil => intro acc _; simp [insertAll]
  | cons kv rest ih =>
    intro acc h
    have hnew : insert acc kv.1 kv.2 = acc ++ [kv] := by
      apply insert_new
      intro kv' hkv'
      rw [distinct, List.pairwise_append] at h
      exact h.2.2 kv' hkv' kv (by simp)
    have := ih (acc ++ [kv]) (by simpa using h)
    simp only [insertAll, List.foldl_cons] at this ⊢
    rw [hnew, this]
    simp

theorem insert_keys (d : List (Key × V)) (k : Key) (v : V) : (insert d k v).map (·.1) = if (find d k).isSome then d.map (·.1) else d.map (·.1) ++ [k] := by
  induction d with
  | nil => simp [insert, find]
  | cons kv rest ih =>
    obtain ⟨k0, v0⟩ := kv
    rw [insert, find]
    by_cases h : Key.eq k0 k = true
    · simp [h]
    · simp [h, ih]; split <;> rfl

theorem distinct_insert {d : List (Key × V)} (hd : distinct d) (k : Key) (v : V) : distinct (insert d k v) := by
  have key : ∀ l : List (Key × V), distinct l ↔ (l.map (·.1)).Pairwise fun a b => Key.eq a b = false := by
    intro l; rw [distinct, List.pairwise_map]
  rw [key, insert_keys]
  split
  · exact (key d).1 hd
  · next h =>
    rw [List.pairwise_append]
    refine ⟨(key d).1 hd, by simp, ?_⟩
    intro a ha b hb
    simp only [List.mem_singleton] at hb
    subst hb
    obtain ⟨kv, hkv, rfl⟩ := List.mem_map.1 ha
    exact (find_none_iff d b).1 (by simpa using h) kv hkv

theorem distinct_insertAll (items : List (Key × V)) : ∀ {d : List (Key × V)}, distinct d → distinct (insertAll d items) := by
  induction items with
  | nil => intro d h; exact h
  | cons kv rest ih => intro d h; exact ih (distinct_insert h kv.1 kv.2)

theorem find_append (d e : List (Key × V)) (k : Key) : find (d ++ e) k = (find d k).or (find e k) := by
  induction d with
  | nil => simp [find]
  | cons kv rest ih =>
    obtain ⟨k0, v0⟩ := kv
    rw [List.cons_append, find, find]
    split <;> simp [ih]

/-- After `update`, a key has its last given value, or else the old one. -/
theorem find_insertAll (items : List (Key × V)) : ∀ (d : List (Key × V)) (k : Key), find (insertAll d items) k = (find items.reverse k).or (find d k) := by
  induction items with
  | nil => intro d k; simp [insertAll, find]
  | cons kv rest ih =>
    intro d k
    have := ih (insert d kv.1 kv.2) k
    simp only [insertAll, List.foldl_cons] at this ⊢
    rw [this, List.reverse_cons, find_append, find_insert]
    simp only [find]
    cases find rest.reverse k <;> by_cases h : Key.eq kv.1 k = true <;> simp [h]

/-! ### Freezing -/

theorem freezeElems_eq : ∀ l : List Key, (elemsOk l = true → ∃ m, freezeElems l = .ok m ∧ m.map Key.atom = l) ∧ (elemsOk l = false → freezeElems l = .error .typeError)
  | [] => by simp [elemsOk, freezeElems]
  | .atom a :: ks => by
    have ih := freezeElems_eq ks
    simp only [elemsOk, List.all_cons, Bool.true_and] at ih ⊢
    refine ⟨fun h => ?_, fun h => ?_⟩
    · obtain ⟨m, h1, h2⟩ := ih.1 h
      exact ⟨a :: m, by simp [freezeElems, h1, Except.map], by simp [h2]⟩
    · simp [freezeElems, ih.2 h, Except.map]
  | .tuple l :: ks => by simp [elemsOk, freezeElems]

mutual
theorem freeze_eq : ∀ x : V, (freezable x = true → ∃ y, freeze x = .ok y) ∧ (freezable x = false → freeze x = .error .typeError)
  | .atom a => by simp [freezable, freeze]
  | .arr _ _ => by simp [freezable, freeze]
  | .tuple l => by
    have ih := freezeAll_eq l
    simp only [freezable, freeze]
    exact ⟨fun h => by obtain ⟨y, hy⟩ := ih.1 h; simp [hy, Except.map], fun h => by simp [ih.2 h, Except.map]⟩
  | .list l => by
    have ih := freezeAll_eq l
    simp only [freezable, freeze]
    exact ⟨fun h => by obtain ⟨y, hy⟩ := ih.1 h; simp [hy, Except.map], fun h => by simp [ih.2 h, Except.map]⟩
  | .set l => by
    have ih := freezeElems_eq l
    simp only [freezable, freeze]
    exact ⟨fun h => by obtain ⟨y, hy, _⟩ := ih.1 h; simp [hy, Except.map], fun h => by simp [ih.2 h, Except.map]⟩
  | .dict l => by
    have ih := freezeItems_eq l
    simp only [freezable, freeze]
    exact ⟨fun h => by obtain ⟨y, hy⟩ := ih.1 h; simp [hy, Except.map], fun h => by simp [ih.2 h, Except.map]⟩
  | .immList _ => by simp [freezable, freeze]
  | .immSet _ => by simp [freezable, freeze]
  | .immDict _ => by simp [freezable, freeze]
theorem freezeAll_eq : ∀ l : List V, (freezableAll l = true → ∃ y, freezeAll l = .ok y) ∧ (freezableAll l = false → freezeAll l = .error .typeError)
  | [] => by simp [freezableAll, freezeAll]
  | v :: vs => by
    have ih1 := freeze_eq v
    have ih2 := freezeAll_eq vs
    rw [freezableAll, freezeAll]
    cases h : freezable v
    · simp [ih1.2 h, Except.bind]
    · obtain ⟨y, hy⟩ := ih1.1 h
      cases h' : freezableAll vs
      · simp [hy, ih2.2 h', Except.bind, Except.map]
      · obtain ⟨ys, hys⟩ := ih2.1 h'
        simp [hy, hys, Except.bind, Except.map]
theorem freezeItems_eq : ∀ l : List (Key × V), (freezableItems l = true → ∃ y, freezeItems l = .ok y) ∧ (freezableItems l = false → freezeItems l = .error .typeError)
  | [] => by simp [freezableItems, freezeItems]
  | (k, v) :: rest => by
    have ih1 := freeze_eq v
    have ih2 := freezeItems_eq rest
    rw [freezableItems, freezeItems, acceptable_eq k]
    cases h : freezable v
    · simp [ih1.2 h, Except.bind]
    · obtain ⟨y, hy⟩ := ih1.1 h
      cases hk : keyOk k
      · simp [hy, Except.bind]
      · cases h' : freezableItems rest
        · simp [hy, ih2.2 h', Except.bind, Except.map]
        · obtain ⟨ys, hys⟩ := ih2.1 h'
          simp [hy, hys, Except.bind, Except.map]
end

theorem freezeAll_cons {v : V} {vs ys : List V} (h : freezeAll (v :: vs) = .ok ys) : ∃ y ys', freeze v = .ok y ∧ freezeAll vs = .ok ys' ∧ ys = y :: ys' := by
  rw [freezeAll] at h
  cases hv : freeze v with
  | error e => rw [hv] at h; simp [Except.bind] at h
  | ok y =>
    cases hvs : freezeAll vs with
    | error e => rw [hv, hvs] at h; simp [Except.bind, Except.map] at h
    | ok ys' =>
      rw [hv, hvs] at h
      simp only [Except.bind, Except.map, Except.ok.injEq] at h
      exact ⟨y, ys', rfl, rfl, h.symm⟩

theorem freezeItems_cons {k : Key} {v : V} {rest ys : List (Key × V)} (h : freezeItems ((k, v) :: rest) = .ok ys) :
    ∃ y ys', freeze v = .ok y ∧ keyOk k = true ∧ freezeItems rest = .ok ys' ∧ ys = (k, y) :: ys' := by
  rw [freezeItems, acceptable_eq] at h
  cases hv : freeze v with
  | error e => rw [hv] at h; simp [Except.bind] at h
  | ok y =>
    rw [hv] at h
    cases hk : keyOk k with
    | false => simp [hk, Except.bind] at h
    | true =>
      cases hr : freezeItems rest with
      | error e => simp [hk, hr, Except.bind, Except.map] at h
      | ok ys' =>
        simp only [hk, hr, Except.bind, Except.map, if_true, Except.ok.injEq] at h
        exact ⟨y, ys', rfl, rfl, rfl, h.symm⟩

theorem freezeItems_keys : ∀ (l ys : List (Key × V)), freezeItems l = .ok ys → ys.map (·.1) = l.map (·.1)
  | [], ys, h => by simp [freezeItems] at h; simp [← h]
  | (k, v) :: rest, ys, h => by
    obtain ⟨y, ys', _, _, hr, rfl⟩ := freezeItems_cons h
    simp [freezeItems_keys rest ys' hr]

theorem distinct_keys {l m : List (Key × V)} (h : l.map (·.1) = m.map (·.1)) : distinct l ↔ distinct m := by
  have key : ∀ l : List (Key × V), distinct l ↔ (l.map (·.1)).Pairwise fun a b => Key.eq a b = false := by
    intro l; rw [distinct, List.pairwise_map]
  rw [key, key, h]

theorem frozenItems_iff (l : List (Key × V)) : frozenItems l = true ↔ ∀ kv ∈ l, frozen kv.2 = true := by
  induction l with
  | nil => simp [frozenItems]
  | cons kv rest ih => obtain ⟨k, v⟩ := kv; simp [frozenItems, ih]

theorem insert_all (P : V → Prop) (d : List (Key × V)) (k : Key) (v : V) (hv : P v) (hd : ∀ kv ∈ d, P kv.2) : ∀ kv ∈ insert d k v, P kv.2 := by
  induction d with
  | nil => simpa [insert] using hv
  | cons kv0 rest ih =>
    obtain ⟨k0, v0⟩ := kv0
    intro kv hkv
    rw [insert] at hkv
    split at hkv
    · rcases List.mem_cons.1 hkv with rfl | h
      · exact hv
      · exact hd _ (by simp [h])
    · rcases List.mem_cons.1 hkv with rfl | h
      · exact hd (k0, v0) (by simp)
      · exact ih (fun kv h => hd kv (by simp [h])) kv h

theorem insertAll_all (P : V → Prop) (items : List (Key × V)) : ∀ (d : List (Key × V)), (∀ kv ∈ items, P kv.2) → (∀ kv ∈ d, P kv.2) → ∀ kv ∈ insertAll d items, P kv.2 := by
  induction items with
  | nil => intro d _ hd; exact hd
  | cons kv rest ih =>
    intro d hi hd
    exact ih (insert d kv.1 kv.2) (fun kv h => hi kv (by simp [h])) (insert_all P d kv.1 kv.2 (hi kv (by simp)) hd)

mutual
theorem freeze_frozen : ∀ (x y : V), Sound x → freeze x = .ok y → frozen y = true
  | .atom a, y, _, h => by simp [freeze] at h; simp [← h, frozen]
  | .arr _ _, y, _, h => by simp [freeze] at h; simp [← h, frozen]
  | .tuple l, y, hs, h => by
    rw [freeze] at h
    cases hl : freezeAll l with
    | error e => rw [hl] at h; simp [Except.map] at h
    | ok ys =>
      rw [hl] at h; simp only [Except.map, Except.ok.injEq] at h
      rw [← h, frozen]; exact freezeAll_frozen l ys (by simpa [Sound] using hs) hl
  | .list l, y, hs, h => by
    rw [freeze] at h
    cases hl : freezeAll l with
    | error e => rw [hl] at h; simp [Except.map] at h
    | ok ys =>
      rw [hl] at h; simp only [Except.map, Except.ok.injEq] at h
      rw [← h, frozen]; exact freezeAll_frozen l ys (by simpa [Sound] using hs) hl
  | .set l, y, _, h => by
    rw [freeze] at h
    cases hl : freezeElems l with
    | error e => rw [hl] at h; simp [Except.map] at h
    | ok ys => rw [hl] at h; simp only [Except.map, Except.ok.injEq] at h; simp [← h, frozen]
  | .dict l, y, hs, h => by
    rw [freeze] at h
    cases hl : freezeItems l with
    | error e => rw [hl] at h; simp [Except.map] at h
    | ok ys =>
      rw [hl] at h; simp only [Except.map, Except.ok.injEq] at h
      rw [← h, frozen, frozenItems_iff]
      exact insertAll_all (fun v => frozen v = true) ys [] ((frozenItems_iff ys).1 (freezeItems_frozen l ys (by simpa [Sound] using hs) hl)) (by simp)
  | .immList l, y, hs, h => by simp [freeze] at h; rw [← h, frozen]; simpa [Sound] using hs
  | .immSet _, y, _, h => by simp [freeze] at h; simp [← h, frozen]
  | .immDict l, y, hs, h => by simp [freeze] at h; rw [← h, frozen]; simpa [Sound] using hs
theorem freezeAll_frozen : ∀ (l ys : List V), SoundAll l → freezeAll l = .ok ys → frozenAll ys = true
  | [], ys, _, h => by simp [freezeAll] at h; simp [h, frozenAll]
  | v :: vs, ys, hs, h => by
    obtain ⟨y, ys', hv, hvs, rfl⟩ := freezeAll_cons h
    simp [frozenAll, freeze_frozen v y hs.1 hv, freezeAll_frozen vs ys' hs.2 hvs]
theorem freezeItems_frozen : ∀ (l ys : List (Key × V)), SoundItems l → freezeItems l = .ok ys → frozenItems ys = true
  | [], ys, _, h => by simp [freezeItems] at h; simp [h, frozenItems]
  | (k, v) :: rest, ys, hs, h => by
    obtain ⟨y, ys', hv, _, hr, rfl⟩ := freezeItems_cons h
    simp [frozenItems, freeze_frozen v y hs.1 hv, freezeItems_frozen rest ys' hs.2 hr]
end

mutual
theorem freeze_of_frozen : ∀ x : V, frozen x = true → freeze x = .ok x
  | .atom _, _ => by simp [freeze]
  | .arr d w, h => by simp [frozen] at h; simp [freeze, h]
  | .immList _, _ => by simp [freeze]
  | .immSet _, _ => by simp [freeze]
  | .immDict _, _ => by simp [freeze]
  | .tuple _, h => by simp [frozen] at h
  | .list _, h => by simp [frozen] at h
  | .set _, h => by simp [frozen] at h
  | .dict _, h => by simp [frozen] at h
theorem freezeAll_of_frozen : ∀ l : List V, frozenAll l = true → freezeAll l = .ok l
  | [], _ => by simp [freezeAll]
  | v :: vs, h => by
    simp only [frozenAll, Bool.and_eq_true] at h
    simp [freezeAll, freeze_of_frozen v h.1, freezeAll_of_frozen vs h.2, Except.bind, Except.map]
end

theorem freezeAll_append : ∀ (l m : List V) (l' m' : List V), freezeAll l = .ok l' → freezeAll m = .ok m' → freezeAll (l ++ m) = .ok (l' ++ m')
  | [], m, l', m', hl, hm => by simp [freezeAll] at hl; simp [hl, hm]
  | v :: vs, m, l', m', hl, hm => by
    obtain ⟨y, ys, hv, hvs, rfl⟩ := freezeAll_cons hl
    simp [freezeAll, hv, freezeAll_append vs m ys m' hvs hm, Except.bind, Except.map]

mutual
theorem plain_freeze : ∀ (x y : V), Good x → freeze x = .ok y → plain y = plain x
  | .atom a, y, _, h => by simp [freeze] at h; simp [← h]
  | .arr d w, y, _, h => by simp [freeze] at h; simp [← h, plain]
  | .tuple l, y, hg, h => by
    rw [freeze] at h
    cases hl : freezeAll l with
    | error e => rw [hl] at h; simp [Except.map] at h
    | ok ys =>
      rw [hl] at h; simp only [Except.map, Except.ok.injEq] at h
      rw [← h, plain, plain, plainAll_freeze l ys (by simpa [Good] using hg) hl]
  | .list l, y, hg, h => by
    rw [freeze] at h
    cases hl : freezeAll l with
    | error e => rw [hl] at h; simp [Except.map] at h
    | ok ys =>
      rw [hl] at h; simp only [Except.map, Except.ok.injEq] at h
      rw [← h, plain, plain, plainAll_freeze l ys (by simpa [Good] using hg) hl]
  | .set l, y, _, h => by
    rw [freeze] at h
    cases he : elemsOk l with
    | false => rw [(freezeElems_eq l).2 he] at h; simp [Except.map] at h
    | true =>
      obtain ⟨m, h1, h2⟩ := (freezeElems_eq l).1 he
      rw [h1] at h; simp only [Except.map, Except.ok.injEq] at h
      rw [← h, plain, plain, h2]
  | .dict l, y, hg, h => by
    rw [Good] at hg
    rw [freeze] at h
    cases hl : freezeItems l with
    | error e => rw [hl] at h; simp [Except.map] at h
    | ok ys =>
      rw [hl] at h; simp only [Except.map, Except.ok.injEq] at h
      have hd : distinct ys := (distinct_keys (freezeItems_keys l ys hl)).2 hg.1
      rw [insertAll_distinct ys [] (by simpa using hd)] at h
      rw [← h, plain, plain]
      simp [plainItems_freeze l ys hg.2 hl]
  | .immList l, y, _, h => by simp [freeze] at h; simp [← h]
  | .immSet _, y, _, h => by simp [freeze] at h; simp [← h]
  | .immDict l, y, _, h => by simp [freeze] at h; simp [← h]
theorem plainAll_freeze : ∀ (l ys : List V), GoodAll l → freezeAll l = .ok ys → plainAll ys = plainAll l
  | [], ys, _, h => by simp [freezeAll] at h; simp [← h]
  | v :: vs, ys, hg, h => by
    obtain ⟨y, ys', hv, hvs, rfl⟩ := freezeAll_cons h
    simp [plainAll, plain_freeze v y hg.1 hv, plainAll_freeze vs ys' hg.2 hvs]
theorem plainItems_freeze : ∀ (l ys : List (Key × V)), GoodItems l → freezeItems l = .ok ys → plainItems ys = plainItems l
  | [], ys, _, h => by simp [freezeItems] at h; simp [← h]
  | (k, v) :: rest, ys, hg, h => by
    obtain ⟨y, ys', hv, _, hr, rfl⟩ := freezeItems_cons h
    simp [plainItems, plain_freeze v y hg.1 hv, plainItems_freeze rest ys' hg.2 hr]
end

/-! ### Equality -/

theorem length_plainAll : ∀ l : List V, (plainAll l).length = l.length
  | [] => rfl
  | v :: vs => by simp [plainAll, length_plainAll vs]

theorem length_plainItems : ∀ l : List (Key × V), (plainItems l).length = l.length
  | [] => rfl
  | (k, v) :: rest => by simp [plainItems, length_plainItems rest]

theorem find_plainItems : ∀ (l : List (Key × V)) (k : Key), find (plainItems l) k = (find l k).map plain
  | [], _ => rfl
  | (k0, v) :: rest, k => by
    rw [plainItems, find, find]
    split
    · rfl
    · exact find_plainItems rest k

mutual
theorem cmp_plain : ∀ (x y : V), frozen x = true → fits (plain x) (plain y) = true → ∃ b, cmp x y = .ok b ∧ cmp (plain x) (plain y) = .ok b
  | .atom a, y, _, hf => by
    cases y <;> simp [plain, fits] at hf <;> simp [plain, cmp]
  | .arr _ _, y, _, hf => by simp [plain, fits] at hf
  | .immList l, y, hx, hf => by
    have key : ∀ m, (seqOf y = some m) → plain y = .list (plainAll m) → ∃ b, cmp (.immList l) y = .ok b ∧ cmp (plain (.immList l)) (plain y) = .ok b := by
      intro m hs hp
      rw [plain, hp] at hf
      simp only [fits] at hf
      obtain ⟨b, h1, h2, h3⟩ := cmpAll_plain l m (by simpa [frozen] using hx) hf
      refine ⟨b, ?_, ?_⟩
      · simp only [cmp, hs]; exact h1
      · rw [plain, hp]
        simp only [cmp, length_plainAll]
        split
        · exact h2
        · next hne => rw [h3 hne]
    cases y with
    | list m => exact key m rfl rfl
    | tuple m => exact key m rfl rfl
    | immList m => exact key m rfl rfl
    | _ => simp [plain, fits] at hf
  | .immSet l, y, _, hf => by
    cases y <;> simp [plain, fits] at hf <;> simp [plain, cmp]
  | .immDict l, y, hx, hf => by
    have key : ∀ m, plain y = .dict (plainItems m) → (cmp (.immDict l) y = if l.length = m.length then cmpItems l m else .ok false) →
        ∃ b, cmp (.immDict l) y = .ok b ∧ cmp (plain (.immDict l)) (plain y) = .ok b := by
      intro m hp hc
      rw [plain, hp] at hf
      simp only [fits] at hf
      obtain ⟨b, h1, h2⟩ := cmpItems_plain l m (by simpa [frozen] using hx) hf
      rw [hc, plain, hp]
      simp only [cmp, length_plainItems]
      split
      · exact ⟨b, h1, h2⟩
      · exact ⟨false, rfl, rfl⟩
    cases y with
    | dict m => exact key m rfl (by simp [cmp])
    | immDict m => exact key m rfl (by simp [cmp])
    | _ => simp [plain, fits] at hf <;> simp [plain, cmp]
  | .tuple _, y, hx, _ => by simp [frozen] at hx
  | .list _, y, hx, _ => by simp [frozen] at hx
  | .set _, y, hx, _ => by simp [frozen] at hx
  | .dict _, y, hx, _ => by simp [frozen] at hx
theorem cmpAll_plain : ∀ (l m : List V), frozenAll l = true → fitsAll (plainAll l) (plainAll m) = true →
    ∃ b, cmpAll l m = .ok b ∧ cmpAll (plainAll l) (plainAll m) = .ok b ∧ (l.length ≠ m.length → b = false)
  | [], [], _, _ => ⟨true, by simp [cmpAll], by simp [plainAll, cmpAll], by simp⟩
  | [], y :: ys, _, _ => ⟨false, by simp [cmpAll], by simp [plainAll, cmpAll], by simp⟩
  | x :: xs, [], _, _ => ⟨false, by simp [cmpAll], by simp [plainAll, cmpAll], by simp⟩
  | x :: xs, y :: ys, hx, hf => by
    simp only [frozenAll, Bool.and_eq_true] at hx
    simp only [plainAll, fitsAll, Bool.and_eq_true] at hf
    obtain ⟨b, h1, h2⟩ := cmp_plain x y hx.1 hf.1
    obtain ⟨c, h3, h4, h5⟩ := cmpAll_plain xs ys hx.2 hf.2
    simp only [plainAll, cmpAll, h1, h2, Except.bind]
    cases b
    · exact ⟨false, by simp, by simp, by simp⟩
    · exact ⟨c, by simp [h3], by simp [h4], by simpa using h5⟩
theorem cmpItems_plain : ∀ (l m : List (Key × V)), frozenItems l = true → fitsItems (plainItems l) (plainItems m) = true →
    ∃ b, cmpItems l m = .ok b ∧ cmpItems (plainItems l) (plainItems m) = .ok b
  | [], m, _, _ => ⟨true, by simp [cmpItems], by simp [plainItems, cmpItems]⟩
  | (k, v) :: rest, m, hx, hf => by
    simp only [frozenItems, Bool.and_eq_true] at hx
    simp only [plainItems, fitsItems, Bool.and_eq_true, find_plainItems] at hf
    simp only [plainItems, cmpItems, find_plainItems]
    cases hk : find m k with
    | none => exact ⟨false, by simp, by simp⟩
    | some w =>
      rw [hk] at hf
      simp only [Option.map_some] at hf ⊢
      obtain ⟨b, h1, h2⟩ := cmp_plain v w hx.1 hf.1
      obtain ⟨c, h3, h4⟩ := cmpItems_plain rest m hx.2 hf.2
      simp only [h1, h2, Except.bind]
      cases b
      · exact ⟨false, by simp, by simp⟩
      · exact ⟨c, by simp [h3], by simp [h4]⟩
end

theorem find_frozen : ∀ {m : List (Key × V)} {k : Key} {w : V}, frozenItems m = true → find m k = some w → frozen w = true
  | (k0, v0) :: rest, k, w, h, hf => by
    simp only [frozenItems, Bool.and_eq_true] at h
    rw [find] at hf
    split at hf
    · cases hf; exact h.1
    · exact find_frozen h.2 hf

mutual
theorem cmp_plain' : ∀ (y x : V), frozen x = true → fits (plain y) (plain x) = true → ∃ b, cmp y x = .ok b ∧ cmp (plain y) (plain x) = .ok b
  | .atom a, x, hx, hf => by
    cases x <;> simp [plain, fits] at hf <;> simp [frozen] at hx <;> simp [plain, cmp]
  | .arr _ _, x, _, hf => by simp [plain, fits] at hf
  | .immList l, x, hx, hf => by
    cases x <;> simp [plain, fits] at hf <;> simp [frozen] at hx
    next m =>
      obtain ⟨b, h1, h2, h3⟩ := cmpAll_plain' l m hx hf
      refine ⟨b, by simpa [cmp, seqOf] using h1, ?_⟩
      simp only [plain, cmp, length_plainAll]
      split
      · exact h2
      · next hne => rw [h3 hne]
  | .list l, x, hx, hf => by
    cases x <;> simp [plain, fits] at hf <;> simp [frozen] at hx
    next m =>
      obtain ⟨b, h1, h2, h3⟩ := cmpAll_plain' l m hx hf
      refine ⟨b, by simpa [cmp] using h1, ?_⟩
      simp only [plain, cmp, length_plainAll]
      split
      · exact h2
      · next hne => rw [h3 hne]
  | .tuple l, x, hx, hf => by
    cases x <;> simp [plain, fits] at hf <;> simp [frozen] at hx
    next m =>
      obtain ⟨b, h1, h2, h3⟩ := cmpAll_plain' l m hx hf
      refine ⟨b, by simpa [cmp] using h1, ?_⟩
      simp only [plain, cmp, length_plainAll]
      split
      · exact h2
      · next hne => rw [h3 hne]
  | .immSet l, x, hx, hf => by
    cases x <;> simp [plain, fits] at hf <;> simp [frozen] at hx <;> simp [plain, cmp]
  | .set l, x, hx, hf => by
    cases x <;> simp [plain, fits] at hf <;> simp [frozen] at hx <;> simp [plain, cmp]
  | .immDict l, x, hx, hf => by
    cases x <;> simp [plain, fits] at hf <;> simp [frozen] at hx
    case immDict m =>
      obtain ⟨b, h1, h2⟩ := cmpItems_plain' l m hx hf
      simp only [plain, cmp, length_plainItems]
      split
      · exact ⟨b, h1, h2⟩
      · exact ⟨false, rfl, rfl⟩
    all_goals simp [plain, cmp]
  | .dict l, x, hx, hf => by
    cases x <;> simp [plain, fits] at hf <;> simp [frozen] at hx
    case immDict m =>
      obtain ⟨b, h1, h2⟩ := cmpItems_plain' l m hx hf
      simp only [plain, cmp, length_plainItems]
      split
      · exact ⟨b, h1, h2⟩
      · exact ⟨false, rfl, rfl⟩
    all_goals simp [plain, cmp]
theorem cmpAll_plain' : ∀ (l m : List V), frozenAll m = true → fitsAll (plainAll l) (plainAll m) = true →
    ∃ b, cmpAll l m = .ok b ∧ cmpAll (plainAll l) (plainAll m) = .ok b ∧ (l.length ≠ m.length → b = false)
  | [], [], _, _ => ⟨true, by simp [cmpAll], by simp [plainAll, cmpAll], by simp⟩
  | [], y :: ys, _, _ => ⟨false, by simp [cmpAll], by simp [plainAll, cmpAll], by simp⟩
  | x :: xs, [], _, _ => ⟨false, by simp [cmpAll], by simp [plainAll, cmpAll], by simp⟩
  | x :: xs, y :: ys, hx, hf => by
    simp only [frozenAll, Bool.and_eq_true] at hx
    simp only [plainAll, fitsAll, Bool.and_eq_true] at hf
    obtain ⟨b, h1, h2⟩ := cmp_plain' x y hx.1 hf.1
    obtain ⟨c, h3, h4, h5⟩ := cmpAll_plain' xs ys hx.2 hf.2
    simp only [plainAll, cmpAll, h1, h2, Except.bind]
    cases b
    · exact ⟨false, by simp, by simp, by simp⟩
    · exact ⟨c, by simp [h3], by simp [h4], by simpa using h5⟩
theorem cmpItems_plain' : ∀ (l m : List (Key × V)), frozenItems m = true → fitsItems (plainItems l) (plainItems m) = true →
    ∃ b, cmpItems l m = .ok b ∧ cmpItems (plainItems l) (plainItems m) = .ok b
  | [], m, _, _ => ⟨true, by simp [cmpItems], by simp [plainItems, cmpItems]⟩
  | (k, v) :: rest, m, hx, hf => by
    simp only [plainItems, fitsItems, Bool.and_eq_true, find_plainItems] at hf
    simp only [plainItems, cmpItems, find_plainItems]
    cases hk : find m k with
    | none => exact ⟨false, by simp, by simp⟩
    | some w =>
      rw [hk] at hf
      simp only [Option.map_some] at hf ⊢
      obtain ⟨b, h1, h2⟩ := cmp_plain' v w (find_frozen hx hk) hf.1
      obtain ⟨c, h3, h4⟩ := cmpItems_plain' rest m hx hf.2
      simp only [h1, h2, Except.bind]
      cases b
      · exact ⟨false, by simp, by simp⟩
      · exact ⟨c, by simp [h3], by simp [h4]⟩
end

theorem sameSet_refl (l : List Key) : sameSet l l = true := by
  simp only [sameSet, decide_true, Bool.true_and, List.all_eq_true]
  intro k hk
  simp only [hasKey, List.any_eq_true]
  exact ⟨k, hk, Key.eq_refl k⟩

theorem mem_plainItems : ∀ {l : List (Key × V)} {k : Key} {v : V}, (k, v) ∈ l → (k, plain v) ∈ plainItems l
  | (k0, v0) :: rest, k, v, h => by
    rcases List.mem_cons.1 h with h | h
    · cases h; simp [plainItems]
    · simp [plainItems, mem_plainItems h]

theorem plainItems_keys : ∀ l : List (Key × V), (plainItems l).map (·.1) = l.map (·.1)
  | [] => rfl
  | (k, v) :: rest => by simp [plainItems, plainItems_keys rest]

mutual
theorem cmp_refl : ∀ x : V, Good x → fits (plain x) (plain x) = true ∧ cmp (plain x) (plain x) = .ok true
  | .atom a, _ => by simp [plain, fits, cmp, Atom.eq_refl]
  | .arr _ _, h => by simp [Good] at h
  | .tuple l, h => by
    have := cmpAll_refl l (by simpa [Good] using h)
    simp [plain, fits, cmp, this.1, this.2]
  | .list l, h => by
    have := cmpAll_refl l (by simpa [Good] using h)
    simp [plain, fits, cmp, this.1, this.2]
  | .immList l, h => by
    have := cmpAll_refl l (by simpa [Good] using h)
    simp [plain, fits, cmp, this.1, this.2]
  | .set l, _ => by simp [plain, fits, cmp, sameSet_refl]
  | .immSet l, _ => by simp [plain, fits, cmp, sameSet_refl]
  | .dict l, h => by
    rw [Good] at h
    have hd : distinct (plainItems l) := (distinct_keys (plainItems_keys l)).2 h.1
    have := cmpItems_refl l (plainItems l) h.2 fun k v hkv => find_mem hd (mem_plainItems hkv)
    simp [plain, fits, cmp, this.1, this.2]
  | .immDict l, h => by
    rw [Good] at h
    have hd : distinct (plainItems l) := (distinct_keys (plainItems_keys l)).2 h.1
    have := cmpItems_refl l (plainItems l) h.2 fun k v hkv => find_mem hd (mem_plainItems hkv)
    simp [plain, fits, cmp, this.1, this.2]
theorem cmpAll_refl : ∀ l : List V, GoodAll l → fitsAll (plainAll l) (plainAll l) = true ∧ cmpAll (plainAll l) (plainAll l) = .ok true
  | [], _ => by simp [plainAll, fitsAll, cmpAll]
  | v :: vs, h => by
    have h1 := cmp_refl v h.1
    have h2 := cmpAll_refl vs h.2
    simp [plainAll, fitsAll, cmpAll, h1.1, h1.2, h2.1, h2.2, Except.bind]
theorem cmpItems_refl : ∀ (l m : List (Key × V)), GoodItems l → (∀ k v, (k, v) ∈ l → find m k = some (plain v)) →
    fitsItems (plainItems l) m = true ∧ cmpItems (plainItems l) m = .ok true
  | [], m, _, _ => by simp [plainItems, fitsItems, cmpItems]
  | (k, v) :: rest, m, h, hm => by
    have h1 := cmp_refl v h.1
    have h2 := cmpItems_refl rest m h.2 fun k' v' h' => hm k' v' (by simp [h'])
    have h3 := hm k v (by simp)
    simp [plainItems, fitsItems, cmpItems, h1.1, h1.2, h2.1, h2.2, h3, Except.bind]
end

/-! ### Theorems -/

/-- C112: what `as_immutable` accepts, and what it gives. It succeeds exactly if all dictionary keys are ints, strings or tuples of such and no set has a tuple; otherwise it raises TypeError. Its result
has the contents of its argument and is immutable through and through; making it immutable again returns it as it is. -/
theorem C112_frozen (x : V) (hg : Good x) (hs : Sound x) :
    (freezable x = false → freeze x = .error .typeError) ∧
    (freezable x = true → ∃ y, freeze x = .ok y ∧ frozen y = true ∧ plain y = plain x ∧ freeze y = .ok y) := by
  refine ⟨(freeze_eq x).2, fun h => ?_⟩
  obtain ⟨y, hy⟩ := (freeze_eq x).1 h
  exact ⟨y, hy, freeze_frozen x y hs hy, plain_freeze x y hg hy, freeze_of_frozen y (freeze_frozen x y hs hy)⟩

/-- C112, partial: comparing an immutable copy with another value gives what comparing the ordinary values gives, as long as lists are compared with lists (what happens otherwise:
`C112_violated_comparison`). -/
theorem C112_equality_partial (x x' y : V) (hg : Good x) (hs : Sound x) (hx : freeze x = .ok x') (hf : fits (plain x) (plain y) = true) :
    ∃ b, cmp x' y = .ok b ∧ cmp (plain x) (plain y) = .ok b := by
  rw [← plain_freeze x x' hg hx] at hf ⊢
  exact cmp_plain x' y (freeze_frozen x x' hs hx) hf

/-- C112, partial: the same with the immutable copy on the right. -/
theorem C112_equality_reflected_partial (x x' y : V) (hg : Good x) (hs : Sound x) (hx : freeze x = .ok x') (hf : fits (plain y) (plain x) = true) :
    ∃ b, cmp y x' = .ok b ∧ cmp (plain y) (plain x) = .ok b := by
  rw [← plain_freeze x x' hg hx] at hf ⊢
  exact cmp_plain' y x' (freeze_frozen x x' hs hx) hf

/-- C112: an immutable copy is equal to the original, and to any other immutable copy of it. -/
theorem C112_equal_to_original (x x' : V) (hg : Good x) (hs : Sound x) (hx : freeze x = .ok x') : cmp x' x = .ok true ∧ cmp x x' = .ok true ∧ cmp x' x' = .ok true := by
  have hr := cmp_refl x hg
  refine ⟨?_, ?_, ?_⟩
  · obtain ⟨b, h1, h2⟩ := C112_equality_partial x x' x hg hs hx hr.1
    rw [hr.2] at h2; cases h2; exact h1
  · obtain ⟨b, h1, h2⟩ := C112_equality_reflected_partial x x' x hg hs hx hr.1
    rw [hr.2] at h2; cases h2; exact h1
  · have hp := plain_freeze x x' hg hx
    obtain ⟨b, h1, h2⟩ := C112_equality_partial x x' x' hg hs hx (by rw [hp]; exact hr.1)
    rw [hp, hr.2] at h2; cases h2; exact h1

/-- C112: access to the items of an `ImmutableList`. Items are found at the positions of a Python list, negative ones included, anything else is an IndexError; a slice is a list of the items at the
positions of the slice. -/
theorem C112_items (l : List V) :
    (∀ (j : Nat) (h : j < l.length), getItem l j = .ok l[j] ∧ getItem l ((j : Int) - l.length) = .ok l[j]) ∧
    (∀ i : Int, (i < -(l.length : Int) ∨ (l.length : Int) ≤ i) → getItem l i = .error .indexError) ∧
    (∀ start stop step, getSlice l start stop step = .list ((ObjectArray.slicePositions l.length start stop step).filterMap fun i => l[i]?)) ∧
    len (.immList l) = some l.length := by
  refine ⟨?_, ?_, fun _ _ _ => rfl, rfl⟩
  · intro j h
    constructor
    · simp [getItem, ObjectArray.normIndex, h]
    · have h1 : ¬ (0 : Int) ≤ (j : Int) - l.length := by omega
      have h2 : -(l.length : Int) ≤ (j : Int) - l.length := by omega
      have h3 : ((j : Int) - l.length + l.length).toNat = j := by omega
      have h4 : ObjectArray.normIndex l.length ((j : Int) - l.length) = some j := by
        rw [ObjectArray.normIndex, if_neg h1, if_pos h2, h3]
      simp [getItem, h4, h]
  · intro i hi
    rcases hi with hi | hi
    · have h1 : ¬ (0 : Int) ≤ i := by omega
      have h2 : ¬ -(l.length : Int) ≤ i := by omega
      simp [getItem, ObjectArray.normIndex, h1, h2]
    · have h1 : (0 : Int) ≤ i := by omega
      have h2 : ¬ i.toNat < l.length := by omega
      simp [getItem, ObjectArray.normIndex, h1, h2]

/-- C112: concatenation, from both sides, gives the immutable list of both, and leaves the items which are immutable already as they are; what cannot be iterated over is a TypeError. -/
theorem C112_concatenation (l m m' : List V) (other : V) (hl : frozenAll l = true) :
    (elements other = some m → freezeAll m = .ok m' → add l other = .ok (.immList (l ++ m')) ∧ radd l other = .ok (.immList (m' ++ l))) ∧
    (elements other = none → add l other = .error .typeError ∧ radd l other = .error .typeError) := by
  refine ⟨fun he hm => ?_, fun he => by simp [add, radd, he]⟩
  have hl' := freezeAll_of_frozen l hl
  simp [add, radd, he, freezeAll_append l m l m' hl' hm, freezeAll_append m l m' l hm hl', Except.map]

/-- C112, partial: membership in an `ImmutableList`, as long as lists are compared with lists. -/
theorem C112_membership_partial (l : List V) (x : V) (hl : frozenAll l = true) (hf : ∀ v ∈ l, fits (plain v) (plain x) = true) :
    ∃ b, containsList l x = .ok b ∧ (b = true ↔ ∃ v ∈ l, cmp (plain v) (plain x) = .ok true) := by
  induction l with
  | nil => exact ⟨false, rfl, by simp⟩
  | cons v vs ih =>
    simp only [frozenAll, Bool.and_eq_true] at hl
    obtain ⟨b, h1, h2⟩ := cmp_plain v x hl.1 (hf v (by simp))
    obtain ⟨c, h3, h4⟩ := ih hl.2 fun v hv => hf v (by simp [hv])
    rw [containsList, h1]
    cases b
    · refine ⟨c, by simp [Except.bind, h3], ?_⟩
      rw [h4]
      simp [h2]
    · exact ⟨true, by simp [Except.bind], by simp [h2]⟩

/-- C112: membership in an `ImmutableSet` of something hashable which is not a tuple. -/
theorem C112_set (l : List Atom) (a : Atom) : ∃ b, containsSet l (.atom a) = .ok b ∧ (b = true ↔ ∃ c ∈ l, Atom.eq c a = true) ∧ len (.immSet l) = some l.length :=
  ⟨l.any fun b => b.eq a, by simp [containsSet, freeze, Except.bind], by simp, rfl⟩

/-- C112: `ImmutableDict(items, **kwargs)` has, for every key, the immutable copy of the value given last; any other acceptable key is a KeyError and not contained; what is not acceptable as a key is
a TypeError. Its keys are pairwise different, and in the given order if the given ones are. -/
theorem C112_dictionary (items : List (Key × V)) (kwargs : List (String × V)) (d : List (Key × V)) (h : mkDict items kwargs = .ok (.immDict d)) :
    (∀ k, keyOk k = true →
      match find (items ++ kwargs.map fun kv => (Key.atom (.str kv.1), kv.2)).reverse k with
      | none => lookup d k = .error .keyError ∧ containsDict d k = .ok false
      | some v => lookup d k = freeze v ∧ containsDict d k = .ok true) ∧
    (∀ k, keyOk k = false → lookup d k = .error .typeError ∧ containsDict d k = .error .typeError) ∧
    distinct d ∧ (distinct (items ++ kwargs.map fun kv => (Key.atom (.str kv.1), kv.2)) → iterDict d = (items ++ kwargs.map fun kv => (Key.atom (.str kv.1), kv.2)).map (·.1)) ∧
    len (.immDict d) = some (iterDict d).length := by
  obtain ⟨it, hit, kw, hkw, rfl⟩ : ∃ it, freezeItems items = .ok it ∧ ∃ kw, freezeItems (kwargs.map fun kv => (Key.atom (.str kv.1), kv.2)) = .ok kw ∧ d = insertAll (insertAll [] it) kw := by
    unfold mkDict at h
    cases hit : freezeItems items with
    | error e => rw [hit] at h; simp [Except.bind] at h
    | ok it =>
      rw [hit] at h
      cases hkw : freezeItems (kwargs.map fun kv => (Key.atom (.str kv.1), kv.2)) with
      | error e => simp [hkw, Except.bind, Except.map] at h
      | ok kw =>
        simp only [hkw, Except.bind, Except.map, Except.ok.injEq, V.immDict.injEq] at h
        exact ⟨it, rfl, kw, rfl, h.symm⟩
  have hall : ∀ (a b a' b' : List (Key × V)), freezeItems a = .ok a' → freezeItems b = .ok b' → freezeItems (a ++ b) = .ok (a' ++ b') := by
    intro a
    induction a with
    | nil => intro b a' b' ha hb; simp [freezeItems] at ha; simp [ha, hb]
    | cons kv rest ih =>
      obtain ⟨k, v⟩ := kv
      intro b a' b' ha hb
      obtain ⟨y, ys, hv, hk, hr, rfl⟩ := freezeItems_cons ha
      simp [freezeItems, hv, acceptable_eq, hk, ih b ys b' hr hb, Except.bind, Except.map]
  have hins : insertAll (insertAll [] it) kw = insertAll [] (it ++ kw) := by simp [insertAll]
  rw [hins]
  generalize hX : items ++ kwargs.map (fun kv => ((.atom (.str kv.1) : Key), kv.2)) = X
  have hY : freezeItems X = .ok (it ++ kw) := by rw [← hX]; exact hall _ _ _ _ hit hkw
  generalize it ++ kw = Y at hY
  have hrev : ∀ (X Y : List (Key × V)), freezeItems X = .ok Y → ∀ k, match find X.reverse k with
      | none => find Y.reverse k = none
      | some v => ∃ w, freeze v = .ok w ∧ find Y.reverse k = some w := by
    intro X
    induction X with
    | nil => intro Y h k; simp [freezeItems] at h; simp [h, find]
    | cons kv rest ih =>
      obtain ⟨k0, v0⟩ := kv
      intro Y h k
      obtain ⟨y, ys, hv, _, hr, rfl⟩ := freezeItems_cons h
      have := ih ys hr k
      simp only [List.reverse_cons, find_append]
      cases hf : find rest.reverse k with
      | none =>
        rw [hf] at this
        rw [this]
        simp only [find, Option.none_or]
        by_cases h0 : Key.eq k0 k = true
        · simp [h0, hv]
        · simp [h0]
      | some v =>
        rw [hf] at this
        obtain ⟨w, h1, h2⟩ := this
        simp only [Option.some_or, h2]
        exact ⟨w, h1, rfl⟩
  refine ⟨?_, ?_, distinct_insertAll Y (by simp [distinct]), ?_, by simp [len, iterDict]⟩
  · intro k hk
    have h1 := hrev X Y hY k
    have h2 := find_insertAll Y [] k
    cases hf : find X.reverse k with
    | none =>
      rw [hf] at h1
      simp only at h1 ⊢
      rw [h1] at h2
      simp only [find, Option.none_or] at h2
      simp [containsDict, lookup, acceptable_eq, hk, Except.bind, h2]
    | some v =>
      rw [hf] at h1
      obtain ⟨w, hw, h3⟩ := h1
      rw [h3] at h2
      simp only [Option.some_or] at h2
      simp [containsDict, lookup, acceptable_eq, hk, Except.bind, h2, hw]
  · intro k hk
    simp [containsDict, lookup, acceptable_eq, hk, Except.bind]
  · intro hd
    have hd' : distinct Y := (distinct_keys (freezeItems_keys X Y hY)).2 hd
    rw [iterDict, insertAll_distinct Y [] (by simpa using hd')]
    simpa using freezeItems_keys X Y hY

mutual
/-- No `ImmutableSet` anywhere. -/
def noSets : V → Bool
  | .immSet _ => false
  | .immList l => noSetsAll l
  | .immDict l => noSetsItems l
  | .atom _ => true
  | .arr _ _ => true
  | .tuple _ => true
  | .list _ => true
  | .set _ => true
  | .dict _ => true
def noSetsAll : List V → Bool
  | [] => true
  | v :: vs => noSets v && noSetsAll vs
def noSetsItems : List (Key × V) → Bool
  | [] => true
  | (_, v) :: rest => noSets v && noSetsItems rest
end

mutual
theorem unpickle_frozen : ∀ v : V, frozen v = true → noSets v = true → ∃ v', unpickle v = .ok v' ∧ sealArr v' = v ∧ ((∀ d w, v ≠ .arr d w) → v' = v)
  | .atom a, _, _ => ⟨.atom a, by simp [unpickle], rfl, fun _ => rfl⟩
  | .arr d w, h, _ => by
    simp [frozen] at h; subst h
    exact ⟨.arr d true, by simp [unpickle], rfl, fun h => absurd rfl (h d false)⟩
  | .immList l, h, hn => by
    obtain ⟨l', h1, h2⟩ := unpickleAll_frozen l (by simpa [frozen] using h) (by simpa [noSets] using hn)
    exact ⟨.immList l, by simp [unpickle, h1, h2, Except.map], rfl, fun _ => rfl⟩
  | .immDict l, h, hn => by
    obtain ⟨l', h1, h2⟩ := unpickleItems_frozen l (by simpa [frozen] using h) (by simpa [noSets] using hn)
    exact ⟨.immDict l, by simp [unpickle, h1, h2, Except.map], rfl, fun _ => rfl⟩
  | .immSet _, _, hn => by simp [noSets] at hn
  | .tuple _, h, _ => by simp [frozen] at h
  | .list _, h, _ => by simp [frozen] at h
  | .set _, h, _ => by simp [frozen] at h
  | .dict _, h, _ => by simp [frozen] at h
theorem unpickleAll_frozen : ∀ l : List V, frozenAll l = true → noSetsAll l = true → ∃ l', unpickleAll l = .ok l' ∧ l'.map sealArr = l
  | [], _, _ => ⟨[], by simp [unpickleAll], rfl⟩
  | v :: vs, h, hn => by
    simp only [frozenAll, noSetsAll, Bool.and_eq_true] at h hn
    obtain ⟨v', h1, h2, _⟩ := unpickle_frozen v h.1 hn.1
    obtain ⟨l', h3, h4⟩ := unpickleAll_frozen vs h.2 hn.2
    exact ⟨v' :: l', by simp [unpickleAll, h1, h3, Except.bind, Except.map], by simp [h2, h4]⟩
theorem unpickleItems_frozen : ∀ l : List (Key × V), frozenItems l = true → noSetsItems l = true → ∃ l', unpickleItems l = .ok l' ∧ l'.map (fun kv => (kv.1, sealArr kv.2)) = l
  | [], _, _ => ⟨[], by simp [unpickleItems], rfl⟩
  | (k, v) :: rest, h, hn => by
    simp only [frozenItems, noSetsItems, Bool.and_eq_true] at h hn
    obtain ⟨v', h1, h2, _⟩ := unpickle_frozen v h.1 hn.1
    obtain ⟨l', h3, h4⟩ := unpickleItems_frozen rest h.2 hn.2
    exact ⟨(k, v') :: l', by simp [unpickleItems, h1, h3, Except.bind, Except.map], by simp [h2, h4]⟩
end

/-- C112, partial: an immutable container without sets comes out of pickling as it was, its arrays at any depth read-only again. -/
theorem C112_pickled_partial (v : V) (h : frozen v = true) (hn : noSets v = true) (hv : ∀ d w, v ≠ .arr d w) : unpickle v = .ok v := by
  obtain ⟨v', h1, _, h3⟩ := unpickle_frozen v h hn
  rw [h1, h3 hv]

mutual
/-- No tuple is a key of an `ImmutableDict`. -/
def noTupleKeys : V → Bool
  | .immSet _ => true
  | .immList l => noTupleKeysAll l
  | .immDict l => noTupleKeysItems l
  | .atom _ => true
  | .arr _ _ => true
  | .tuple _ => true
  | .list _ => true
  | .set _ => true
  | .dict _ => true
def noTupleKeysAll : List V → Bool
  | [] => true
  | v :: vs => noTupleKeys v && noTupleKeysAll vs
def noTupleKeysItems : List (Key × V) → Bool
  | [] => true
  | (.atom _, v) :: rest => noTupleKeys v && noTupleKeysItems rest
  | (.tuple _, _) :: _ => false
end

mutual
theorem thaw_frozen : ∀ v : V, frozen v = true → noTupleKeys v = true → thaw v = .ok (plain v)
  | .atom a, _, _ => by simp [thaw, plain]
  | .arr d w, _, _ => by simp [thaw, plain]
  | .immList l, h, hn => by
    simp [thaw, plain, thawAll_frozen l (by simpa [frozen] using h) (by simpa [noTupleKeys] using hn), Except.map]
  | .immDict l, h, hn => by
    simp [thaw, plain, thawItems_frozen l (by simpa [frozen] using h) (by simpa [noTupleKeys] using hn), Except.map]
  | .immSet _, _, _ => by simp [thaw, plain]
  | .tuple _, h, _ => by simp [frozen] at h
  | .list _, h, _ => by simp [frozen] at h
  | .set _, h, _ => by simp [frozen] at h
  | .dict _, h, _ => by simp [frozen] at h
theorem thawAll_frozen : ∀ l : List V, frozenAll l = true → noTupleKeysAll l = true → thawAll l = .ok (plainAll l)
  | [], _, _ => by simp [thawAll, plainAll]
  | v :: vs, h, hn => by
    simp only [frozenAll, noTupleKeysAll, Bool.and_eq_true] at h hn
    simp [thawAll, plainAll, thaw_frozen v h.1 hn.1, thawAll_frozen vs h.2 hn.2, Except.bind, Except.map]
theorem thawItems_frozen : ∀ l : List (Key × V), frozenItems l = true → noTupleKeysItems l = true → thawItems l = .ok (plainItems l)
  | [], _, _ => by simp [thawItems, plainItems]
  | (.atom a, v) :: rest, h, hn => by
    simp only [frozenItems, noTupleKeysItems, Bool.and_eq_true] at h hn
    simp [thawItems, plainItems, thawKey, thaw_frozen v h.1 hn.1, thawItems_frozen rest h.2 hn.2, Except.bind, Except.map]
  | (.tuple _, _) :: _, _, hn => by simp [noTupleKeysItems] at hn
end

/-- C112, partial: without tuples as keys, the mutable copy of an immutable value is the ordinary value with its contents. -/
theorem C112_mutable_partial (v : V) (h : frozen v = true) (hn : noTupleKeys v = true) : thaw v = .ok (plain v) := thaw_frozen v h hn

/-- C112: as in an ordinary set, numbers which are equal are the same element, be they integers, floats or booleans; different numbers are different elements. -/
theorem C112_numeric_elements (l : List Atom) :
    (∀ z : Int, containsSet l (.atom (.int z)) = containsSet l (.atom (.float z))) ∧
    (∀ b : Bool, containsSet l (.atom (.bool b)) = containsSet l (.atom (.int (if b then 1 else 0)))) ∧
    (∀ p q : ℚ, containsSet (.float p :: l) (.atom (.float q)) = if p = q then .ok true else containsSet l (.atom (.float q))) := by
  have same : ∀ a b : Atom, (∀ c : Atom, c.eq a = c.eq b) → containsSet l (.atom a) = containsSet l (.atom b) := by
    intro a b h
    simp [containsSet, freeze, Except.bind, h]
  refine ⟨fun z => same _ _ fun c => ?_, fun b => same _ _ fun c => ?_, fun p q => ?_⟩
  · cases c <;> simp [Atom.eq, Atom.num]
  · cases b <;> cases c <;> simp [Atom.eq, Atom.num]
  · by_cases h : p = q
    · simp [containsSet, freeze, Except.bind, h, Atom.eq, Atom.num]
    · simp [containsSet, freeze, Except.bind, h, Atom.eq, Atom.num]

example : containsSet [.str "a", .int 1] (.atom (.float 1)) = .ok true := by
  have := (C112_numeric_elements [.str "a", .int 1]).1 1
  rw [show ((1 : Int) : ℚ) = 1 by norm_num] at this
  rw [← this]
  rfl

/-! ### What does not hold -/

/-- C112 fails for comparisons of an `ImmutableList` with something which is not a list. `as_immutable([[1], 5]) == None` is a TypeError, and so is the question whether it contains 5; the copy of
`["a", "b"]` is equal to the string `"ab"`, and to every dictionary with these two keys. -/
theorem C112_violated_comparison :
    (∃ x x', freeze x = .ok x' ∧ cmp x (.atom .none) = .ok false ∧ cmp x' (.atom .none) = .error .typeError) ∧
    (∃ l l', freeze (.list l) = .ok (.immList l') ∧ containsList l (.atom (.int 5)) = .ok true ∧ containsList l' (.atom (.int 5)) = .error .typeError) ∧
    (∃ x x', freeze x = .ok x' ∧ cmp x (.atom (.str "ab")) = .ok false ∧ cmp x' (.atom (.str "ab")) = .ok true) ∧
    (∃ x x' d, freeze x = .ok x' ∧ cmp x (.dict d) = .ok false ∧ cmp x' (.dict d) = .ok true) := by
  refine ⟨⟨.list [.list [.atom (.int 1)], .atom (.int 5)], _, rfl, rfl, rfl⟩, ⟨[.list [.atom (.int 1)], .atom (.int 5)], _, rfl, rfl, rfl⟩,
    ⟨.list [.atom (.str "a"), .atom (.str "b")], _, rfl, rfl, by decide +kernel⟩,
    ⟨.list [.atom (.str "a"), .atom (.str "b")], _, [(.atom (.str "a"), .atom (.int 1)), (.atom (.str "b"), .atom (.int 2))], rfl, rfl, by decide +kernel⟩⟩

/-- C112 fails for membership of tuples: `(1, 2) in as_immutable({1})` is a TypeError. -/
theorem C112_violated_set_membership : ∃ l, freeze (.set [.atom (.int 1)]) = .ok (.immSet l) ∧ containsSet l (.tuple [.atom (.int 1), .atom (.int 2)]) = .error .typeError :=
  ⟨_, rfl, rfl⟩

/-- C112 fails for pickling of sets: whatever it holds, an `ImmutableSet` cannot be loaded, nor anything which contains one. -/
theorem C112_violated_pickled_set : (∀ l, unpickle (.immSet l) = .error .notImplementedError) ∧
    ∃ x x', freeze x = .ok x' ∧ unpickle x = .ok x ∧ unpickle x' = .error .notImplementedError :=
  ⟨fun _ => by simp [unpickle], .list [.atom (.int 1), .set [.atom (.int 2)]], _, rfl, rfl, rfl⟩

/-- C112 fails for tuples as keys: `as_immutable({(1, 2): 3})` is accepted, but has no mutable copy. -/
theorem C112_violated_tuple_key : ∃ x x', freeze x = .ok x' ∧ thaw x' = .error .typeError :=
  ⟨.dict [(.tuple [.atom (.int 1), .atom (.int 2)], .atom (.int 3))], _, rfl, rfl⟩

/-! ### The hypotheses are met -/

/-- `{"a": [1, (2, "x")], 7: {3, 4}, ("b", 1): {"c": None}}` -/
def sample : V := .dict [(.atom (.str "a"), .list [.atom (.int 1), .tuple [.atom (.int 2), .atom (.str "x")]]), (.atom (.int 7), .set [.atom (.int 3), .atom (.int 4)]),
  (.tuple [.atom (.str "b"), .atom (.int 1)], .dict [(.atom (.str "c"), .atom .none)])]

theorem sample_good : Good sample ∧ Sound sample := by
  constructor
  · simp only [sample, Good, GoodItems, GoodAll, and_true, true_and]
    exact ⟨by unfold distinct; decide +kernel, by unfold distinct; decide +kernel⟩
  · simp [sample, Sound, SoundItems, SoundAll]

example : freezable sample = true ∧ Good sample ∧ Sound sample := ⟨by decide +kernel, sample_good⟩
example : ∃ x', freeze sample = .ok x' ∧ cmp x' sample = .ok true ∧ frozen x' = true := by
  obtain ⟨y, h1, h2, _⟩ := (C112_frozen sample sample_good.1 sample_good.2).2 (by decide +kernel)
  exact ⟨y, h1, (C112_equal_to_original sample y sample_good.1 sample_good.2 h1).1, h2⟩
example : fits (plain (.list [.atom (.int 1), .tuple [.atom (.int 2)]])) (plain (.tuple [.atom (.int 1), .list [.atom (.int 3)]])) = true := by decide +kernel
example : mkDict [(.atom (.str "a"), .list [.atom (.int 1)]), (.atom (.str "b"), .atom (.int 2))] [("a", .tuple [])] =
    .ok (.immDict [(.atom (.str "a"), .immList []), (.atom (.str "b"), .atom (.int 2))]) := rfl
example : frozen (.immDict [(.atom (.str "a"), .immList [.arr [1, 2] false])]) = true ∧ noSets (.immDict [(.atom (.str "a"), .immList [.arr [1, 2] false])]) = true ∧
    noTupleKeys (.immDict [(.atom (.str "a"), .immList [.arr [1, 2] false])]) = true := ⟨rfl, rfl, rfl⟩
example : (∀ v ∈ [V.atom (.int 1), .atom (.str "x")], fits (plain v) (plain (.atom (.int 1))) = true) ∧ frozenAll [V.atom (.int 1), .atom (.str "x")] = true := by decide +kernel
example : elements (.tuple [.list [.atom (.int 2)]]) = some [.list [.atom (.int 2)]] ∧ freezeAll [.list [.atom (.int 2)]] = .ok [.immList [.atom (.int 2)]] := ⟨rfl, rfl⟩

end EvoTorch.Immutable
