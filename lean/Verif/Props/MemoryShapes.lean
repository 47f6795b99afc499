import Verif.Model.MemoryShapes
import Mathlib.Tactic.Common
import Mathlib.Algebra.Field.Rat
/-!
C166: shapes of keys, values and masks.
-/
namespace EvoTorch.MemoryShapes
open EvoTorch
open EvoTorch.BatchDims (Tensor Within)
open EvoTorch.CMemory (torchIndex)

/-! ### Specification -/

/-- The shape of something given: a number has none. -/
def Given.shape {K : Type} : Given K → List Nat
  | .number _ => []
  | .sequence t => t.shape
  | .tensor t => t.shape

/-- Its element at a position. -/
def Given.entry {K : Type} : Given K → List Nat → K
  | .number x, _ => x
  | .sequence t, p => t.item p
  | .tensor t, p => t.item p

/-- Coordinate `j` of the key meant for batch position `b`: the keys may be given one per batch position, or one for all. -/
def keyAt (l : Layout) (key : Given Int) (b : List Nat) (j : Nat) : Int :=
  let c := if l.multi then [j] else []
  if key.shape = l.bs ++ l.keyShape then key.entry (b ++ c) else key.entry c

/-- The number meant for batch position `b` and position `v` within the value: there may be one value per batch position, one for all, or one number for everything. -/
def numberAt {K : Type} (l : Layout) (value : Given K) (b v : List Nat) : K :=
  if value.shape = l.bs ++ l.vs then value.entry (b ++ v) else if value.shape = [] then value.entry [] else value.entry v

/-- Is a batch position selected? -/
def chosen (mask : Option (Given Bool)) (b : List Nat) : Bool := match mask with
  | none => true
  | some w => w.entry b

/-- The key of a batch position is one of the declared ones. -/
def Declared (l : Layout) (key : Given Int) (b : List Nat) : Prop :=
  ∀ j < l.numKeys.length, l.off j ≤ keyAt l key b j ∧ keyAt l key b j < l.off j + l.numKeys.getD j 0

/-- The key of a batch position is declared, or is so after adding the number of keys. -/
def Indexable (l : Layout) (key : Given Int) (b : List Nat) : Prop :=
  ∀ j < l.numKeys.length, l.off j - l.numKeys.getD j 0 ≤ keyAt l key b j ∧ keyAt l key b j < l.off j + l.numKeys.getD j 0

/-- The shape of a value is fine: one per batch position, one for all, or one number. -/
def GoodValue {K : Type} (l : Layout) (value : Given K) : Prop := value.shape = l.bs ++ l.vs ∨ value.shape = l.vs ∨ value.shape = []

/-- The calls that should be accepted, and are. With a mask and keys of several coordinates the keys have to be given per batch position (see `C155_violated_masked_key`), and
the keys of positions that are not selected have to be indexable (see `C04_unselected_key_can_raise`). -/
structure Accepted {K : Type} (l : Layout) (key : Given Int) (value : Given K) (mask : Option (Given Bool)) : Prop where
  maskShape : ∀ w, mask = some w → w.shape = l.bs
  keyShape : key.shape = l.bs ++ l.keyShape ∨ (key.shape = l.keyShape ∧ (l.multi = true → mask = none))
  valueShape : GoodValue l value
  range : ∀ b, Within l.bs b → (chosen mask b = true → Declared l key b) ∧ (chosen mask b = false → Indexable l key b)

/-- The slot of a declared key. -/
def slotAt (l : Layout) (key : Given Int) (b : List Nat) : List Nat := (List.range l.numKeys.length).map fun j => (keyAt l key b j - l.off j).toNat

/-- A call performs an update: it is accepted exactly as above; then the value in the slot of each selected batch position is updated by `g`, number by number, and nothing else;
a refused call changes nothing. -/
def Performs {K α : Type} (m : Mem α) (key : Given Int) (value : Given K) (mask : Option (Given Bool)) (extra : Prop) (g : List Nat → List Nat → α → α) (o : Outcome (Mem α) Unit) : Prop :=
  (Accepted m.lay key value mask ∧ extra → o.result = .ok () ∧ o.state.lay = m.lay ∧
    ∀ b k v, Within m.lay.bs b → Within m.lay.numKeys k → Within m.lay.vs v →
      o.state.data b k v = if chosen mask b = true ∧ k = slotAt m.lay key b then g b v (m.data b k v) else m.data b k v) ∧
  (¬ (Accepted m.lay key value mask ∧ extra) → o.state = m ∧ ∃ e, o.result = .error e)

/-- A layout that the constructor has made. -/
def Made (l : Layout) : Prop := ∃ size numKeys offset batchSize batchShape, layout size numKeys offset batchSize batchShape = .ok l

/-! ### The constructor -/

/-- The sizes that an argument means. -/
def Dim.sizes : Dim → List Int
  | .int n => [n]
  | .seq l => l

/-- Is it a sequence? -/
def Dim.isSeq : Dim → Bool
  | .int _ => false
  | .seq _ => true

/-- What an offset means for coordinate `j` of the keys. -/
def shift (offset : Option Dim) (j : Nat) : Int := match offset with
  | none => 0
  | some (.int n) => n
  | some (.seq o) => o.getD j 0

/-- The arguments that are accepted: at least two keys in a sequence, offsets that fit, sizes as integers or as one sequence, one way to give the batch, nothing negative. -/
structure Acceptable (size : List Dim) (numKeys : Dim) (offset batchSize batchShape : Option Dim) : Prop where
  keys : ∀ l, numKeys = .seq l → 2 ≤ l.length
  offsets : ∀ l, offset = some (.seq l) → ∃ ks, numKeys = .seq ks ∧ l.length = ks.length
  value : (∃ ns : List Int, size = ns.map .int) ∨ ∃ ns, size = [.seq ns]
  batch : batchSize = none ∨ batchShape = none
  nonneg : ∀ n ∈ numKeys.sizes ++ size.flatMap Dim.sizes ++ ((batchSize.or batchShape).elim [] Dim.sizes), 0 ≤ n

theorem mapM_asInt (ns : List Int) : (ns.map Dim.int).mapM asInt = .ok ns := by
  induction ns with
  | nil => rfl
  | cons n ns ih => simp only [List.map_cons, List.mapM_cons, ih]; rfl

theorem mapM_asInt_error : ∀ (l : List Dim), (¬ ∃ ns : List Int, l = ns.map .int) → l.mapM asInt = .error .typeError
  | [], h => absurd ⟨[], rfl⟩ h
  | .seq s :: l, _ => by simp only [List.mapM_cons, asInt]; rfl
  | .int n :: l, h => by
    have := mapM_asInt_error l (fun ⟨ns, e⟩ => h ⟨n :: ns, by simp [e]⟩)
    simp only [List.mapM_cons, this]; rfl

theorem sizeArg_of (size : List Dim) (h : (∃ ns : List Int, size = ns.map .int) ∨ ∃ ns, size = [.seq ns]) : sizeArg size = .ok (size.flatMap Dim.sizes) := by
  rcases h with ⟨ns, rfl⟩ | ⟨ns, rfl⟩
  · have e : (ns.map Dim.int).flatMap Dim.sizes = ns := by
      induction ns with
      | nil => rfl
      | cons n ns ih => simp only [List.map_cons, List.flatMap_cons, ih]; rfl
    rw [e]
    match ns with
    | [] => rfl
    | [n] => rfl
    | a :: b :: r => exact mapM_asInt (a :: b :: r)
  · simp [sizeArg, Dim.sizes]

theorem sizeArg_error (size : List Dim) (h : ¬ ((∃ ns : List Int, size = ns.map .int) ∨ ∃ ns, size = [.seq ns])) : sizeArg size = .error .typeError := by
  push Not at h
  match size, h with
  | [], h => exact absurd rfl (h.1 [])
  | [.seq l], h => exact absurd rfl (h.2 l)
  | [.int n], h => exact absurd rfl (h.1 [n])
  | a :: b :: r, h =>
    have := mapM_asInt_error (a :: b :: r) (fun ⟨ns, e⟩ => h.1 ns e)
    cases a <;> exact this

theorem sizes_ok (l : List Int) (h : ∀ n ∈ l, 0 ≤ n) : sizes l = .ok (l.map Int.toNat) := by
  unfold sizes; rw [if_pos (by simpa using h)]

theorem sizes_error (l : List Int) (h : ¬ ∀ n ∈ l, 0 ≤ n) : sizes l = .error .runtimeError := by
  unfold sizes; rw [if_neg (by simpa using h)]

/-- **C166.** The constructor accepts exactly the arguments described, and uses the sizes given. -/
theorem C166_constructor (size : List Dim) (numKeys : Dim) (offset batchSize batchShape : Option Dim) :
    (Acceptable size numKeys offset batchSize batchShape → ∃ l, layout size numKeys offset batchSize batchShape = .ok l ∧
      l.vs = (size.flatMap Dim.sizes).map Int.toNat ∧ l.bs = ((batchSize.or batchShape).elim [] Dim.sizes).map Int.toNat ∧ l.numKeys = numKeys.sizes.map Int.toNat ∧
      (l.multi = true ↔ ∃ ks, numKeys = .seq ks) ∧
      ∀ j < l.numKeys.length, l.off j = shift offset j) ∧
    (¬ Acceptable size numKeys offset batchSize batchShape → ∃ e, layout size numKeys offset batchSize batchShape = .error e) := by
  constructor
  · intro h
    have hs := sizeArg_of size h.value
    have hb : batchArg batchSize batchShape = .ok ((batchSize.or batchShape).elim [] Dim.sizes) := by
      rcases h.batch with rfl | rfl
      · rcases batchShape with _ | (n | l) <;> rfl
      · rcases batchSize with _ | (n | l) <;> rfl
    have n1 := sizes_ok numKeys.sizes (fun n hn => h.nonneg n (by simp [hn]))
    have n2 := sizes_ok (size.flatMap Dim.sizes) (fun n hn => h.nonneg n (by
      rw [List.append_assoc]; exact List.mem_append_right _ (List.mem_append_left _ hn)))
    have n3 := sizes_ok _ (fun n hn => h.nonneg n (List.mem_append_right _ hn))
    cases numKeys with
    | int n =>
      have hk : keysArg (.int n) = .ok (false, Dim.sizes (.int n)) := rfl
      have ho : ∃ o, offsetArg false (Dim.sizes (.int n)) offset = .ok o ∧ (⟨false, [], o, [], []⟩ : Layout).off 0 = shift offset 0 := by
        rcases offset with _ | (m | o)
        · exact ⟨none, rfl, rfl⟩
        · exact ⟨some [m], rfl, rfl⟩
        · obtain ⟨ks, e, _⟩ := h.offsets o rfl; simp at e
      obtain ⟨o, ho, hoo⟩ := ho
      refine ⟨⟨false, (Dim.sizes (.int n)).map Int.toNat, o, (size.flatMap Dim.sizes).map Int.toNat, ((batchSize.or batchShape).elim [] Dim.sizes).map Int.toNat⟩, ?_, rfl, rfl, rfl, by simp, ?_⟩
      · simp only [layout, hk, ho, hs, hb, n1, n2, n3, bind, Except.bind, pure, Except.pure]
      · intro j hj
        have : j = 0 := by simp [Dim.sizes] at hj; exact hj
        subst this
        rw [← hoo]; rfl
    | seq ks =>
      have hk : keysArg (.seq ks) = .ok (true, Dim.sizes (.seq ks)) := by
        have := h.keys ks rfl
        simp only [keysArg]; rw [if_neg (by omega)]; rfl
      have ho : ∃ o, offsetArg true (Dim.sizes (.seq ks)) offset = .ok o ∧ ∀ j < ks.length, (⟨true, [], o, [], []⟩ : Layout).off j = shift offset j := by
        rcases offset with _ | (m | o)
        · exact ⟨none, rfl, fun _ _ => rfl⟩
        · refine ⟨some (ks.map fun _ => m), rfl, fun j hj => ?_⟩
          simp [Layout.off, shift, List.getD, hj]
        · obtain ⟨ks', e, hl⟩ := h.offsets o rfl
          injection e with e
          subst e
          refine ⟨some o, ?_, fun _ _ => rfl⟩
          simp [offsetArg, Dim.sizes, hl]
      obtain ⟨o, ho, hoo⟩ := ho
      refine ⟨⟨true, (Dim.sizes (.seq ks)).map Int.toNat, o, (size.flatMap Dim.sizes).map Int.toNat, ((batchSize.or batchShape).elim [] Dim.sizes).map Int.toNat⟩, ?_, rfl, rfl, rfl, by simp, ?_⟩
      · simp only [layout, hk, ho, hs, hb, n1, n2, n3, bind, Except.bind, pure, Except.pure]
      · intro j hj
        rw [← hoo j (by simpa [Dim.sizes] using hj)]; rfl
  · intro h
    by_contra hno
    apply h
    cases hl : layout size numKeys offset batchSize batchShape with
    | error e => exact absurd ⟨e, hl⟩ hno
    | ok l =>
      unfold layout at hl
      simp only [bind, Except.bind] at hl
      have hsz : (∃ ns : List Int, size = ns.map .int) ∨ ∃ ns, size = [.seq ns] := by
        by_contra hc
        rw [sizeArg_error size hc] at hl
        split at hl
        · simp at hl
        · split at hl <;> simp at hl
      rw [sizeArg_of size hsz] at hl
      have hbt : batchSize = none ∨ batchShape = none := by
        by_contra hc
        push Not at hc
        obtain ⟨x, rfl⟩ := Option.ne_none_iff_exists'.1 hc.1
        obtain ⟨y, rfl⟩ := Option.ne_none_iff_exists'.1 hc.2
        split at hl
        · simp at hl
        · split at hl <;> simp [batchArg] at hl
      have hb : batchArg batchSize batchShape = .ok ((batchSize.or batchShape).elim [] Dim.sizes) := by
        rcases hbt with rfl | rfl
        · rcases batchShape with _ | (n | l) <;> rfl
        · rcases batchSize with _ | (n | l) <;> rfl
      rw [hb] at hl
      have hkeys : ∀ l, numKeys = .seq l → 2 ≤ l.length := by
        rintro ks rfl
        by_contra hc
        simp [keysArg, show ks.length < 2 by omega] at hl
      have hk : keysArg numKeys = .ok (numKeys.isSeq, numKeys.sizes) := by
        cases numKeys with
        | int n => rfl
        | seq ks => have := hkeys ks rfl; simp only [keysArg]; rw [if_neg (by omega)]; rfl
      rw [hk] at hl
      simp only at hl
      split at hl
      · simp at hl
      · rename_i ho
        have hn3 : ∀ n ∈ (batchSize.or batchShape).elim [] Dim.sizes, 0 ≤ n := by
          by_contra hc; rw [sizes_error _ hc] at hl; simp at hl
        rw [sizes_ok _ hn3] at hl
        have hn1 : ∀ n ∈ numKeys.sizes, 0 ≤ n := by
          by_contra hc; rw [sizes_error _ hc] at hl; simp at hl
        rw [sizes_ok _ hn1] at hl
        have hn2 : ∀ n ∈ size.flatMap Dim.sizes, 0 ≤ n := by
          by_contra hc; rw [sizes_error _ hc] at hl; simp at hl
        refine ⟨hkeys, ?_, hsz, hbt, ?_⟩
        · rintro o rfl
          cases numKeys with
          | int n => simp [offsetArg, Dim.isSeq] at ho
          | seq ks =>
            refine ⟨ks, rfl, ?_⟩
            by_contra hc
            simp [offsetArg, Dim.sizes, Dim.isSeq, hc] at ho
        · intro n hn
          rcases List.mem_append.1 hn with hn | hn
          · rcases List.mem_append.1 hn with hn | hn
            · exact hn1 n hn
            · exact hn2 n hn
          · exact hn3 n hn

/-- A memory of matrices, with pairs of keys, an offset and a batch. -/
example : Acceptable [.int 2, .int 3] (.seq [3, 5]) (some (.seq [1, -1])) none (some (.int 4)) :=
  ⟨by rintro l ⟨⟩; decide, by rintro l ⟨⟩; exact ⟨_, rfl, rfl⟩, .inl ⟨[2, 3], rfl⟩, .inl rfl, by decide⟩

/-! ### Lemmas -/

theorem made_length {l : Layout} (h : Made l) : l.multi = false → l.numKeys.length = 1 := by
  obtain ⟨size, numKeys, offset, batchSize, batchShape, h⟩ := h
  by_cases ha : Acceptable size numKeys offset batchSize batchShape
  · obtain ⟨l', h', -, -, hk, hm, -⟩ := (C166_constructor _ _ _ _ _).1 ha
    rw [h] at h'
    have := Except.ok.inj h'; subst this
    intro hf
    cases numKeys with
    | int n => rw [hk]; rfl
    | seq ks => rw [hm.2 ⟨ks, rfl⟩] at hf; simp at hf
  · obtain ⟨e, h'⟩ := (C166_constructor _ _ _ _ _).2 ha
    rw [h] at h'; simp at h'

theorem mem_positions : ∀ {s p : List Nat}, p ∈ positions s ↔ Within s p
  | [], p => by cases p <;> simp [positions, Within]
  | n :: ns, [] => by simp [positions, Within]
  | n :: ns, i :: p => by
    simp only [positions, List.mem_flatMap, List.mem_range, List.mem_map, Within]
    constructor
    · rintro ⟨j, hj, q, hq, e⟩
      injection e with e1 e2
      subst e1 e2
      exact ⟨hj, mem_positions.1 hq⟩
    · rintro ⟨hi, hp⟩
      exact ⟨i, hi, p, mem_positions.2 hp, rfl⟩

theorem within_append : ∀ {a c p : List Nat}, Within (a ++ c) p ↔ ∃ p1 p2, p = p1 ++ p2 ∧ Within a p1 ∧ Within c p2
  | [], c, p => by
    constructor
    · intro h; exact ⟨[], p, rfl, trivial, h⟩
    · rintro ⟨p1, p2, rfl, h1, h2⟩
      cases p1 with
      | nil => exact h2
      | cons _ _ => exact absurd h1 (by simp [Within])
  | n :: a, c, [] => by
    constructor
    · intro h; exact absurd h (by simp [Within])
    · rintro ⟨p1, p2, e, h1, -⟩
      cases p1 with
      | nil => exact absurd h1 (by simp [Within])
      | cons _ _ => simp at e
  | n :: a, c, i :: p => by
    constructor
    · rintro ⟨hi, h⟩
      obtain ⟨p1, p2, rfl, h1, h2⟩ := within_append.1 h
      exact ⟨i :: p1, p2, rfl, ⟨hi, h1⟩, h2⟩
    · rintro ⟨p1, p2, e, h1, h2⟩
      cases p1 with
      | nil => exact absurd h1 (by simp [Within])
      | cons k p1 =>
        simp only [List.cons_append, List.cons.injEq] at e
        obtain ⟨rfl, rfl⟩ := e
        exact ⟨h1.1, within_append.2 ⟨p1, p2, rfl, h1.2, h2⟩⟩

theorem within_len {s p : List Nat} (h : Within s p) : p.length = s.length := by
  induction s generalizing p with
  | nil => cases p with | nil => rfl | cons _ _ => exact absurd h (by simp [Within])
  | cons n s ih => cases p with
    | nil => exact absurd h (by simp [Within])
    | cons i p => simp [ih h.2]

theorem within_zeros : ∀ {s : List Nat}, (∀ n ∈ s, 0 < n) → ∃ p, Within s p
  | [], _ => ⟨[], trivial⟩
  | n :: s, h => by
    obtain ⟨p, hp⟩ := within_zeros (s := s) (fun n hn => h n (List.mem_cons_of_mem _ hn))
    exact ⟨0 :: p, h n (List.mem_cons_self ..), hp⟩

theorem expand_item {α : Type} (t : Tensor α) (shape b c : List Nat) (h : c.length = t.shape.length) : (expand t shape).item (b ++ c) = t.item c := by
  show t.item _ = _
  rw [show (b ++ c).length - t.shape.length = b.length by simp [h], List.drop_left]

theorem asTensor_shape {K α : Type} (conv : K → α) (g : Given K) : (g.asTensor conv).shape = g.shape := by cases g <;> rfl

theorem asTensor_item {K α : Type} (conv : K → α) (g : Given K) (p : List Nat) : (g.asTensor conv).item p = conv (g.entry p) := by cases g <;> rfl

/-- The part of a key position that names the coordinate. -/
def tail (l : Layout) (j : Nat) : List Nat := if l.multi then [j] else []

theorem tail_length (l : Layout) (j : Nat) : (tail l j).length = l.keyShape.length := by
  unfold tail Layout.keyShape; split <;> rfl

theorem within_keyShape {l : Layout} (hl : l.multi = false → l.numKeys.length = 1) {c : List Nat} :
    Within l.keyShape c ↔ ∃ j < l.numKeys.length, c = tail l j := by
  unfold tail Layout.keyShape
  cases hm : l.multi with
  | true =>
    simp only [if_true]
    constructor
    · intro h
      match c, h with
      | [j], h => exact ⟨j, h.1, rfl⟩
    · rintro ⟨j, hj, rfl⟩; exact ⟨hj, trivial⟩
  | false =>
    simp only [Bool.false_eq_true, if_false]
    constructor
    · intro h
      cases c with
      | nil => exact ⟨0, by rw [hl hm]; omega, rfl⟩
      | cons _ _ => exact absurd h (by simp [Within])
    · rintro ⟨j, hj, rfl⟩; trivial

theorem coordinate_tail {l : Layout} (hl : l.multi = false → l.numKeys.length = 1) (b : List Nat) {j : Nat} (hj : j < l.numKeys.length) : l.coordinate (b ++ tail l j) = j := by
  unfold Layout.coordinate tail
  cases hm : l.multi with
  | true => simp
  | false => simp only [Bool.false_eq_true, if_false]; rw [hl hm] at hj; omega

theorem getLastD_tail (l : Layout) (b : List Nat) (j d : Nat) (hm : l.multi = true) : (b ++ tail l j).getLastD d = j := by
  unfold tail; rw [hm]; simp

theorem minKey_item (l : Layout) (hl : l.multi = false → l.numKeys.length = 1) (b : List Nat) {j : Nat} (hj : j < l.numKeys.length) (shape : List Nat) :
    (expand l.minKey shape).item (b ++ tail l j) = l.off j := by
  have hlen : (tail l j).length = l.minKey.shape.length := by
    unfold tail Layout.minKey; split <;> rfl
  rw [expand_item _ _ _ _ hlen]
  unfold Layout.minKey tail
  cases hm : l.multi with
  | true => simp
  | false =>
    have : j = 0 := by rw [hl hm] at hj; omega
    simp [this]

/-- The bounds of the verification, for one number. -/
theorem bounds_iff (off n k : Int) : (decide (0 + off ≤ k) && decide (k ≤ (n - 1) + off)) = true ↔ off ≤ k ∧ k < off + n := by
  simp only [Bool.and_eq_true, decide_eq_true_eq]; omega

theorem valid_iff {l : Layout} (hl : l.multi = false → l.numKeys.length = 1) (t : Tensor Int) (bs : List Nat) (h : t.shape = bs ++ l.keyShape) :
    keyMustBeValid l t = true ↔ ∀ b, Within bs b → ∀ j < l.numKeys.length,
      l.off j ≤ t.item (b ++ tail l j) ∧ t.item (b ++ tail l j) < l.off j + l.numKeys.getD j 0 := by
  unfold keyMustBeValid
  rw [List.all_eq_true]
  constructor
  · intro H b hb j hj
    have := H (b ++ tail l j) (mem_positions.2 (by rw [h]; exact within_append.2 ⟨_, _, rfl, hb, (within_keyShape hl).2 ⟨j, hj, rfl⟩⟩))
    rw [coordinate_tail hl b hj] at this
    exact (bounds_iff _ _ _).1 this
  · intro H p hp
    rw [mem_positions, h] at hp
    obtain ⟨b, c, rfl, hb, hc⟩ := within_append.1 hp
    obtain ⟨j, hj, rfl⟩ := (within_keyShape hl).1 hc
    rw [coordinate_tail hl b hj]
    exact (bounds_iff _ _ _).2 (H b hb j hj)

theorem doWhere_full {α : Type} (w : Tensor Bool) (a b : Tensor α) (s r : List Nat) (hw : w.shape = s) (ha : a.shape = s ++ r) (hb : b.shape = s ++ r) :
    ∃ t, doWhere w a b = .ok t ∧ t.shape = s ++ r ∧ ∀ p c, p.length = s.length → t.item (p ++ c) = if w.item p then a.item (p ++ c) else b.item (p ++ c) := by
  have h1 : ¬ (a.shape.length = 0 ∧ 0 < b.shape.length) := by rw [ha, hb]; omega
  have h2 : ¬ (0 < a.shape.length ∧ b.shape.length = 0) := by rw [ha, hb]; omega
  refine ⟨⟨a.shape, fun p => if w.item (p.take w.shape.length) then a.item p else b.item p⟩, ?_, ha, ?_⟩
  · unfold doWhere
    simp only [h1, h2, if_false]
    rw [if_neg (by simp [ha, hb]), if_neg (by simp [ha, hw]), if_neg (by simp [ha, hw])]
  · intro p c hp
    show (if w.item ((p ++ c).take w.shape.length) then _ else _) = _
    rw [show (p ++ c).take w.shape.length = p by rw [hw, ← hp]; simp]

theorem doWhere_scalar {α : Type} (w : Tensor Bool) (a : Tensor α) (x : α) (s r : List Nat) (hw : w.shape = s) (ha : a.shape = s ++ r) :
    ∃ t, doWhere w a ⟨[], fun _ => x⟩ = .ok t ∧ t.shape = s ++ r ∧ ∀ p c, p.length = s.length → t.item (p ++ c) = if w.item p then a.item (p ++ c) else x := by
  by_cases h0 : s ++ r = []
  · obtain ⟨t, h, hs, hi⟩ := doWhere_full w a ⟨[], fun _ => x⟩ s r hw ha h0.symm
    exact ⟨t, h, hs, fun p c hp => hi p c hp⟩
  · have hpos : 0 < a.shape.length := by rw [ha]; exact List.length_pos_iff.2 h0
    refine ⟨⟨a.shape, fun p => if w.item (p.take w.shape.length) then a.item p else x⟩, ?_, ha, ?_⟩
    · unfold doWhere
      rw [if_neg (show ¬ (a.shape.length = 0 ∧ 0 < ([] : List Nat).length) by simp), if_pos (show 0 < a.shape.length ∧ ([] : List Nat).length = 0 from ⟨hpos, rfl⟩)]
      simp only
      rw [if_neg (by simp [expand]), if_neg (by simp [ha, hw]), if_neg (by simp [ha, hw])]
      rfl
    · intro p c hp
      show (if w.item ((p ++ c).take w.shape.length) then _ else _) = _
      rw [show (p ++ c).take w.shape.length = p by rw [hw, ← hp]; simp]

/-- The shapes of keys that are accepted. -/
def GoodKey (l : Layout) (key : Given Int) (masked : Bool) : Prop := key.shape = l.bs ++ l.keyShape ∨ (key.shape = l.keyShape ∧ (l.multi = true → masked = false))

theorem keyAt_entry (l : Layout) (key : Given Int) (b : List Nat) (j : Nat) :
    keyAt l key b j = if key.shape = l.bs ++ l.keyShape then key.entry (b ++ tail l j) else key.entry (tail l j) := rfl

/-- What `_get_key` does with keys of a good shape. -/
theorem getKey_good {l : Layout} (hl : l.multi = false → l.numKeys.length = 1) (hb : ∀ n ∈ l.bs, 0 < n) (key : Given Int) (w : Option (Tensor Bool))
    (hw : ∀ t, w = some t → t.shape = l.bs) (h : GoodKey l key w.isSome) :
    ∃ t : Tensor Int, (∀ b, b.length = l.bs.length → ∀ j < l.numKeys.length, t.item (b ++ tail l j) = keyAt l key b j) ∧
      ((∀ b, Within l.bs b → ∀ j < l.numKeys.length, if w.elim true (·.item b) then l.off j ≤ keyAt l key b j ∧ keyAt l key b j < l.off j + l.numKeys.getD j 0
          else 0 < l.numKeys.getD j 0) → getKey l key w = .ok t) ∧
      (¬ (∀ b, Within l.bs b → ∀ j < l.numKeys.length, if w.elim true (·.item b) then l.off j ≤ keyAt l key b j ∧ keyAt l key b j < l.off j + l.numKeys.getD j 0
          else 0 < l.numKeys.getD j 0) → getKey l key w = .error .keyError) := by
  have hsh : (key.asTensor id).shape = key.shape := asTensor_shape _ _
  have hit : ∀ p, (key.asTensor id).item p = key.entry p := fun p => asTensor_item _ _ p
  -- the key that is used
  have hres : ∃ t : Tensor Int, usedKey l (key.asTensor id) = .ok t ∧
      ∀ b, b.length = l.bs.length → ∀ j < l.numKeys.length, t.item (b ++ tail l j) = keyAt l key b j := by
    by_cases h1 : key.shape = l.bs ++ l.keyShape
    · refine ⟨key.asTensor id, by unfold usedKey; rw [hsh, if_pos h1], fun b _ j _ => ?_⟩
      rw [hit, keyAt_entry, if_pos h1]
    · have h2 : key.shape = l.keyShape := (h.resolve_left h1).1
      refine ⟨expand (key.asTensor id) (l.bs ++ l.keyShape), by unfold usedKey; rw [hsh, if_neg h1, if_pos h2], fun b _ j _ => ?_⟩
      rw [expand_item _ _ _ _ (by rw [hsh, h2, tail_length]), hit, keyAt_entry, if_neg h1]
  obtain ⟨t, ht, hti⟩ := hres
  -- the key that is verified
  have hchk : ∃ (c : Tensor Int) (s : List Nat), checkedKey l (key.asTensor id) w = .ok c ∧
      (keyMustBeValid l c = true ↔ ∀ b, Within l.bs b → ∀ j < l.numKeys.length,
        if w.elim true (·.item b) then l.off j ≤ keyAt l key b j ∧ keyAt l key b j < l.off j + l.numKeys.getD j 0 else 0 < l.numKeys.getD j 0) := by
    cases w with
    | none =>
      refine ⟨key.asTensor id, [], rfl, ?_⟩
      simp only [Option.elim, if_true]
      by_cases h1 : key.shape = l.bs ++ l.keyShape
      · rw [valid_iff hl _ l.bs (by rw [hsh, h1])]
        constructor
        · intro H b hb j hj
          have := H b hb j hj
          rw [hit] at this
          rwa [keyAt_entry, if_pos h1]
        · intro H b hb j hj
          have := H b hb j hj
          rw [keyAt_entry, if_pos h1] at this
          rwa [hit]
      · have h2 : key.shape = l.keyShape := (h.resolve_left h1).1
        rw [valid_iff hl _ [] (by rw [hsh, h2]; rfl)]
        constructor
        · intro H b hb j hj
          have := H [] trivial j hj
          rw [List.nil_append, hit] at this
          rwa [keyAt_entry, if_neg h1]
        · intro H b' hb' j hj
          obtain ⟨b, hbb⟩ := within_zeros hb
          have := H b hbb j hj
          rw [keyAt_entry, if_neg h1] at this
          cases b' with
          | nil => rwa [List.nil_append, hit]
          | cons _ _ => exact absurd hb' (by simp [Within])
    | some w =>
      have hwb := hw w rfl
      simp only [Option.elim]
      by_cases h1 : key.shape = l.bs ++ l.keyShape
      · obtain ⟨c, hc, hcs, hci⟩ := doWhere_full w (key.asTensor id) (expand l.minKey (l.bs ++ l.keyShape)) l.bs l.keyShape hwb (by rw [hsh, h1]) rfl
        refine ⟨c, [], hc, ?_⟩
        rw [valid_iff hl c l.bs hcs]
        refine forall_congr' fun b => forall_congr' fun hb => forall_congr' fun j => forall_congr' fun hj => ?_
        rw [hci b _ (within_len hb), hit, minKey_item l hl b hj, keyAt_entry, if_pos h1]
        by_cases hwi : w.item b = true <;> simp [hwi]
      · obtain ⟨h2, h3⟩ := h.resolve_left h1
        have hm : l.multi = false := by
          cases hm : l.multi with
          | false => rfl
          | true => exact absurd (h3 hm) (by simp)
        have hks : l.keyShape = [] := by unfold Layout.keyShape; rw [hm]; rfl
        rw [hks, List.append_nil] at h1
        rw [hks] at h2
        have hne : l.bs ≠ [] := fun e => h1 (by rw [h2, e])
        have hsw : doWhere w (key.asTensor id) (expand l.minKey l.bs) = doWhere w (expand (key.asTensor id) l.bs) (expand l.minKey l.bs) := by
          have hpos : 0 < l.bs.length := List.length_pos_iff.2 hne
          have e1 : (key.asTensor id).shape.length = 0 ∧ 0 < (expand l.minKey l.bs).shape.length := ⟨by rw [hsh, h2]; rfl, hpos⟩
          have e2 : ¬ (0 < (key.asTensor id).shape.length ∧ (expand l.minKey l.bs).shape.length = 0) := by rw [e1.1]; simp
          have e3 : ¬ ((expand (key.asTensor id) l.bs).shape.length = 0 ∧ 0 < (expand l.minKey l.bs).shape.length) := by
            show ¬ (l.bs.length = 0 ∧ _); omega
          have e4 : ¬ (0 < (expand (key.asTensor id) l.bs).shape.length ∧ (expand l.minKey l.bs).shape.length = 0) := by
            show ¬ (_ ∧ l.bs.length = 0); omega
          unfold doWhere
          rw [if_pos e1, if_neg e2, if_neg e3, if_neg e4]
          rfl
        obtain ⟨c, hc, hcs, hci⟩ := doWhere_full w (expand (key.asTensor id) l.bs) (expand l.minKey l.bs) l.bs [] hwb (by simp [expand]) (by simp [expand])
        refine ⟨c, [], by
          show doWhere w (key.asTensor id) (expand l.minKey (l.bs ++ l.keyShape)) = _
          rw [hks, List.append_nil, hsw]; exact hc, ?_⟩
        rw [valid_iff hl c l.bs (by rw [hcs, hks])]
        refine forall_congr' fun b => forall_congr' fun hb => forall_congr' fun j => forall_congr' fun hj => ?_
        have hk : keyAt l key b j = key.entry (tail l j) := by
          rw [keyAt_entry, if_neg]
          rw [hks, List.append_nil]; exact h1
        rw [hci b _ (within_len hb), minKey_item l hl b hj, expand_item _ _ _ _ (by rw [hsh, h2, tail_length, hks]), hit, hk]
        by_cases hwi : w.item b = true <;> simp [hwi]
  obtain ⟨c, -, hc, hval⟩ := hchk
  refine ⟨t, hti, ?_, ?_⟩
  · intro H
    unfold getKey
    simp only [bind, Except.bind, ht, hc]
    rw [if_pos (hval.2 H)]
  · intro H
    unfold getKey
    simp only [bind, Except.bind, ht, hc]
    rw [if_neg (fun e => H (hval.1 e))]

/-- Keys of other shapes are refused. -/
theorem getKey_bad {l : Layout} (key : Given Int) (w : Option (Tensor Bool)) (hw : ∀ t, w = some t → t.shape = l.bs) (h : ¬ GoodKey l key w.isSome) :
    getKey l key w = .error .runtimeError := by
  have hsh : (key.asTensor id).shape = key.shape := asTensor_shape _ _
  unfold GoodKey at h
  push Not at h
  obtain ⟨h1, h2⟩ := h
  by_cases h3 : key.shape = l.keyShape
  · have hu : usedKey l (key.asTensor id) = .ok (expand (key.asTensor id) (l.bs ++ l.keyShape)) := by unfold usedKey; rw [hsh, if_neg h1, if_pos h3]
    obtain ⟨hm, hs⟩ := h2 h3
    cases w with
    | none => simp at hs
    | some w =>
      have hks : l.keyShape = [l.numKeys.length] := by unfold Layout.keyShape; rw [hm]; rfl
      have hlen : (key.asTensor id).shape.length = 1 := by rw [hsh, h3, hks]; rfl
      have hne : (key.asTensor id).shape ≠ l.bs ++ l.keyShape := by rw [hsh]; exact h1
      have : doWhere w (key.asTensor id) (expand l.minKey (l.bs ++ l.keyShape)) = .error .runtimeError := by
        unfold doWhere
        have e1 : ¬ ((key.asTensor id).shape.length = 0 ∧ 0 < (expand l.minKey (l.bs ++ l.keyShape)).shape.length) := by rw [hlen]; simp
        have e2 : ¬ (0 < (key.asTensor id).shape.length ∧ (expand l.minKey (l.bs ++ l.keyShape)).shape.length = 0) := by
          show ¬ (_ ∧ (l.bs ++ l.keyShape).length = 0)
          rw [hks]; simp
        rw [if_neg e1, if_neg e2]
        simp only
        rw [if_pos]
        exact hne
      unfold getKey checkedKey
      simp only [bind, Except.bind, hu, this]
  · have hu : usedKey l (key.asTensor id) = .error .runtimeError := by unfold usedKey; rw [hsh, if_neg h1, if_neg h3]
    unfold getKey
    simp only [bind, Except.bind, hu]

theorem torchIndex_some (n : Nat) (u : Int) : (torchIndex n u).isSome = true ↔ -(n : Int) ≤ u ∧ u < n := by
  unfold torchIndex
  split
  · simp; omega
  · split
    · simp; omega
    · simp; omega

theorem mapM_some {β : Type} (f : Nat → Option β) (l : List Nat) : (l.mapM f).isSome = true ↔ ∀ j ∈ l, (f j).isSome = true := by
  induction l with
  | nil => simp
  | cons a l ih =>
    rw [List.mapM_cons]
    cases ha : f a with
    | none => simp [ha]
    | some x =>
      cases hl : l.mapM f with
      | none => rw [hl] at ih; simp at ih; simp [ha]; simpa using ih
      | some y => rw [hl] at ih; simp at ih; simp [ha]; simpa using ih

theorem mapM_eq {β : Type} (f : Nat → Option β) (g : Nat → β) (l : List Nat) (h : ∀ j ∈ l, f j = some (g j)) : l.mapM f = some (l.map g) := by
  induction l with
  | nil => rfl
  | cons a l ih =>
    rw [List.mapM_cons, h a (List.mem_cons_self ..), ih (fun j hj => h j (List.mem_cons_of_mem _ hj))]
    rfl

section Address
variable {l : Layout} {key : Given Int} {t : Tensor Int} (hit : ∀ b, b.length = l.bs.length → ∀ j < l.numKeys.length, t.item (b ++ tail l j) = keyAt l key b j)
include hit

theorem slotOf_eq {b : List Nat} (hb : b.length = l.bs.length) :
    slotOf l t b = (List.range l.numKeys.length).mapM fun j => torchIndex (l.numKeys.getD j 0) (keyAt l key b j - l.off j) := by
  unfold slotOf
  have : ∀ (L : List Nat), (∀ j ∈ L, j < l.numKeys.length) → (L.mapM fun j => torchIndex (l.numKeys.getD j 0) (t.item (if l.multi then b ++ [j] else b) - l.off j)) =
      L.mapM fun j => torchIndex (l.numKeys.getD j 0) (keyAt l key b j - l.off j) := by
    intro L hL
    induction L with
    | nil => rfl
    | cons a L ih =>
      have e : t.item (if l.multi then b ++ [a] else b) = keyAt l key b a := by
        rw [← hit b hb a (hL a (List.mem_cons_self ..))]
        unfold tail
        cases l.multi <;> simp
      rw [List.mapM_cons, List.mapM_cons, e, ih (fun j hj => hL j (List.mem_cons_of_mem _ hj))]
  exact this _ (fun j hj => List.mem_range.1 hj)

theorem address_ok (h : ∀ b, Within l.bs b → Indexable l key b) : ∃ slot, address l t = .ok slot ∧ ∀ b, Within l.bs b → Declared l key b → slot b = slotAt l key b := by
  refine ⟨fun b => (slotOf l t b).getD [], ?_, ?_⟩
  · unfold address
    rw [if_pos]
    rw [List.all_eq_true]
    intro b hb
    rw [mem_positions] at hb
    rw [slotOf_eq hit (within_len hb), mapM_some]
    intro j hj
    have := h b hb j (List.mem_range.1 hj)
    rw [torchIndex_some]; omega
  · intro b hb hd
    show (slotOf l t b).getD [] = _
    rw [slotOf_eq hit (within_len hb), mapM_eq _ (fun j => (keyAt l key b j - l.off j).toNat)]
    · rfl
    · intro j hj
      have := hd j (List.mem_range.1 hj)
      unfold torchIndex
      rw [if_pos (by omega)]

theorem address_error (h : ¬ ∀ b, Within l.bs b → Indexable l key b) : address l t = .error .indexError := by
  unfold address
  rw [if_neg]
  intro hall
  rw [List.all_eq_true] at hall
  apply h
  intro b hb j hj
  have := hall b (mem_positions.2 hb)
  rw [slotOf_eq hit (within_len hb), mapM_some] at this
  have := this j (List.mem_range.2 hj)
  rw [torchIndex_some] at this
  omega

end Address

theorem getValue_good {K α : Type} (conv : K → α) (l : Layout) (value : Given K) (h : GoodValue l value) :
    ∃ t, getValue conv l value = .ok t ∧ t.shape = l.bs ++ l.vs ∧ ∀ b v, v.length = l.vs.length → t.item (b ++ v) = conv (numberAt l value b v) := by
  have hsh : (value.asTensor conv).shape = value.shape := asTensor_shape _ _
  unfold getValue numberAt
  by_cases h1 : value.shape = l.bs ++ l.vs
  · refine ⟨value.asTensor conv, by simp only [hsh]; rw [if_pos h1], by rw [hsh, h1], fun b v _ => ?_⟩
    rw [asTensor_item, if_pos h1]
  · refine ⟨expand (value.asTensor conv) (l.bs ++ l.vs), ?_, rfl, ?_⟩
    · simp only [hsh]
      rw [if_neg h1, if_pos]
      rcases h.resolve_left h1 with h | h
      · exact .inr h
      · exact .inl (by rw [h]; rfl)
    · intro b v hv
      rw [if_neg h1]
      by_cases h2 : value.shape = []
      · rw [if_pos h2]
        have := expand_item (value.asTensor conv) (l.bs ++ l.vs) (b ++ v) [] (by rw [hsh, h2])
        rw [List.append_nil] at this
        rw [this, asTensor_item]
      · rw [if_neg h2, expand_item _ _ _ _ (by rw [hsh, (h.resolve_left h1).resolve_right h2, hv]), asTensor_item]

theorem getValue_bad {K α : Type} (conv : K → α) (l : Layout) (value : Given K) (h : ¬ GoodValue l value) : getValue conv l value = .error .runtimeError := by
  have hsh : (value.asTensor conv).shape = value.shape := asTensor_shape _ _
  unfold GoodValue at h
  push Not at h
  unfold getValue
  simp only [hsh]
  rw [if_neg h.1, if_neg]
  rintro (e | e)
  · exact h.2.2 (List.length_eq_zero_iff.1 e)
  · exact h.2.1 e

theorem maskArg_good (l : Layout) (mask : Option (Given Bool)) (h : ∀ w, mask = some w → w.shape = l.bs) :
    ∃ w, maskArg l mask = .ok w ∧ w.isSome = mask.isSome ∧ (∀ t, w = some t → t.shape = l.bs) ∧ ∀ b, w.elim true (·.item b) = chosen mask b := by
  cases mask with
  | none => exact ⟨none, rfl, rfl, by simp, fun _ => rfl⟩
  | some g =>
    have := h g rfl
    refine ⟨some (g.asTensor id), ?_, rfl, ?_, fun b => ?_⟩
    · simp only [maskArg, getWhere, asTensor_shape]
      rw [if_neg (by simp [this])]; rfl
    · rintro t ⟨⟩; rw [asTensor_shape, this]
    · simp [asTensor_item, chosen]

theorem maskArg_bad (l : Layout) (mask : Option (Given Bool)) (h : ¬ ∀ w, mask = some w → w.shape = l.bs) : maskArg l mask = .error .runtimeError := by
  cases mask with
  | none => exact absurd (by simp) h
  | some g =>
    have : g.shape ≠ l.bs := fun e => h (by rintro w ⟨⟩; exact e)
    simp only [maskArg, getWhere, asTensor_shape]
    rw [if_pos this]; rfl

/-- The common part of all modifications. -/
theorem modify_performs {K α : Type} (conv : K → α) (m : Mem α) (hmade : Made m.lay) (hb : ∀ n ∈ m.lay.bs, 0 < n) (key : Given Int) (value : Given K) (mask : Option (Given Bool))
    (extra : Prop) (g : List Nat → List Nat → α → α) (f : Tensor α → Tensor α → Option (Tensor Bool) → Except PyErr (Tensor α))
    (hgood : extra → ∀ old val w, old.shape = m.lay.bs ++ m.lay.vs → val.shape = m.lay.bs ++ m.lay.vs → (∀ t, w = some t → t.shape = m.lay.bs) →
      (∀ b v, v.length = m.lay.vs.length → val.item (b ++ v) = conv (numberAt m.lay value b v)) → w.isSome = mask.isSome →
      ∃ t, f old val w = .ok t ∧ ∀ b v, b.length = m.lay.bs.length → v.length = m.lay.vs.length →
        t.item (b ++ v) = if w.elim true (·.item b) then g b v (old.item (b ++ v)) else old.item (b ++ v))
    (hbad : ¬ extra → ∀ old val w, ∃ e, f old val w = .error e) :
    Performs m key value mask extra g (modify conv m key value mask f) := by
  have hl := made_length hmade
  by_cases hm : ∀ w, mask = some w → w.shape = m.lay.bs
  swap
  · refine ⟨fun h => absurd h.1.maskShape hm, fun _ => ?_⟩
    unfold modify
    simp only [bind, Except.bind, maskArg_bad _ _ hm]
    exact ⟨trivial, _, rfl⟩
  obtain ⟨w, hw, hwm, hws, hwc⟩ := maskArg_good m.lay mask hm
  by_cases hk : GoodKey m.lay key w.isSome
  swap
  · have hk' : ¬ (key.shape = m.lay.bs ++ m.lay.keyShape ∨ (key.shape = m.lay.keyShape ∧ (m.lay.multi = true → mask = none))) := by
      intro h; apply hk
      rcases h with h | ⟨h, h'⟩
      · exact .inl h
      · refine .inr ⟨h, fun e => ?_⟩
        rw [hwm, h' e]; rfl
    refine ⟨fun h => absurd h.1.keyShape hk', fun _ => ?_⟩
    unfold modify
    simp only [bind, Except.bind, hw, getKey_bad key w hws hk]
    exact ⟨trivial, _, rfl⟩
  have hk' : key.shape = m.lay.bs ++ m.lay.keyShape ∨ (key.shape = m.lay.keyShape ∧ (m.lay.multi = true → mask = none)) := by
    rcases hk with h | ⟨h, h'⟩
    · exact .inl h
    · refine .inr ⟨h, fun e => ?_⟩
      have := h' e
      rw [hwm] at this
      cases mask with
      | none => rfl
      | some _ => simp at this
  obtain ⟨t, hti, hok, herr⟩ := getKey_good hl hb key w hws hk
  by_cases hv : GoodValue m.lay value
  swap
  · refine ⟨fun h => absurd h.1.valueShape hv, fun _ => ?_⟩
    unfold modify
    simp only [bind, Except.bind, hw]
    cases getKey m.lay key w with
    | error e => exact ⟨rfl, e, rfl⟩
    | ok k =>
      simp only [getValue_bad conv _ _ hv]
      exact ⟨trivial, _, rfl⟩
  obtain ⟨val, hval, hvs, hvi⟩ := getValue_good conv m.lay value hv
  by_cases hr : ∀ b, Within m.lay.bs b → (chosen mask b = true → Declared m.lay key b) ∧ (chosen mask b = false → Indexable m.lay key b)
  · have hidx : ∀ b, Within m.lay.bs b → Indexable m.lay key b := by
      intro b hbb
      cases hc : chosen mask b with
      | false => exact (hr b hbb).2 hc
      | true =>
        intro j hj
        have := (hr b hbb).1 hc j hj
        omega
    have hkey := hok (by
      intro b hbb j hj
      rw [hwc]
      cases hc : chosen mask b with
      | true => exact (hr b hbb).1 hc j hj
      | false => have := (hr b hbb).2 hc j hj; simp only [Bool.false_eq_true, if_false]; omega)
    obtain ⟨slot, hslot, hse⟩ := address_ok hti hidx
    by_cases hx : extra
    · obtain ⟨n, hn, hni⟩ := hgood hx (gather m slot) val w rfl hvs hws hvi hwm
      refine ⟨fun _ => ?_, fun h => absurd ⟨⟨hm, hk', hv, hr⟩, hx⟩ h⟩
      have : modify conv m key value mask f = ⟨scatter m slot n, .ok ()⟩ := by
        unfold modify
        simp only [bind, Except.bind, pure, Except.pure, hw, hkey, hval, hslot, hn]
      rw [this]
      refine ⟨rfl, rfl, fun b k v hbb hkk hvv => ?_⟩
      show (if k = slot b then n.item (b ++ v) else m.data b k v) = _
      have hbl := within_len hbb
      have hg : (gather m slot).item (b ++ v) = m.data b (slot b) v := by
        show m.data ((b ++ v).take m.lay.bs.length) (slot ((b ++ v).take m.lay.bs.length)) ((b ++ v).drop m.lay.bs.length) = _
        rw [← hbl]; simp
      rw [hni b v hbl (within_len hvv), hwc, hg]
      cases hc : chosen mask b with
      | false => simp only [Bool.false_eq_true, if_false, false_and]; split <;> simp_all
      | true =>
        rw [hse b hbb ((hr b hbb).1 hc)]
        simp only [true_and, if_true]
        split
        · rename_i e; rw [e]
        · rfl
    · obtain ⟨e, he⟩ := hbad hx (gather m slot) val w
      refine ⟨fun h => absurd h.2 hx, fun _ => ?_⟩
      unfold modify
      simp only [bind, Except.bind, hw, hkey, hval, hslot, he]
      exact ⟨trivial, _, rfl⟩
  · refine ⟨fun h => absurd h.1.range hr, fun _ => ?_⟩
    by_cases hcheck : ∀ b, Within m.lay.bs b → ∀ j < m.lay.numKeys.length, if w.elim true (·.item b) then m.lay.off j ≤ keyAt m.lay key b j ∧
        keyAt m.lay key b j < m.lay.off j + m.lay.numKeys.getD j 0 else 0 < m.lay.numKeys.getD j 0
    · have hkey := hok hcheck
      have hni : ¬ ∀ b, Within m.lay.bs b → Indexable m.lay key b := by
        intro h
        apply hr
        intro b hbb
        refine ⟨fun hc j hj => ?_, fun _ => h b hbb⟩
        have := hcheck b hbb j hj
        rw [hwc, hc] at this
        simpa using this
      unfold modify
      simp only [bind, Except.bind, hw, hkey, hval, address_error hti hni]
      exact ⟨trivial, _, rfl⟩
    · unfold modify
      simp only [bind, Except.bind, hw, herr hcheck]
      exact ⟨trivial, _, rfl⟩

/-! ### C166 -/

/-- **C166.** Reading accepts exactly the keys of the right shapes that are declared, and gives for each batch position the value in the slot of its key. -/
theorem C166_get {α : Type} (m : Mem α) (hmade : Made m.lay) (hb : ∀ n ∈ m.lay.bs, 0 < n) (key : Given Int) :
    (GoodKey m.lay key false ∧ (∀ b, Within m.lay.bs b → Declared m.lay key b) → ∃ t, get m key = .ok t ∧ t.shape = m.lay.bs ++ m.lay.vs ∧
      ∀ b v, Within m.lay.bs b → Within m.lay.vs v → t.item (b ++ v) = m.data b (slotAt m.lay key b) v) ∧
    (¬ GoodKey m.lay key false → get m key = .error .runtimeError) ∧
    (GoodKey m.lay key false → (¬ ∀ b, Within m.lay.bs b → Declared m.lay key b) → get m key = .error .keyError) := by
  have hl := made_length hmade
  refine ⟨?_, ?_, ?_⟩
  · rintro ⟨hk, hd⟩
    obtain ⟨t, hti, hok, -⟩ := getKey_good hl hb key none (by simp) hk
    have hkey := hok (fun b hbb j hj => by simpa using hd b hbb j hj)
    obtain ⟨slot, hslot, hse⟩ := address_ok hti (fun b hbb j hj => by have := hd b hbb j hj; omega)
    refine ⟨gather m slot, ?_, rfl, ?_⟩
    · unfold get; simp only [bind, Except.bind, hkey, hslot]
    · intro b v hbb hvv
      show m.data ((b ++ v).take m.lay.bs.length) (slot ((b ++ v).take m.lay.bs.length)) ((b ++ v).drop m.lay.bs.length) = _
      rw [← within_len hbb, ← hse b hbb (hd b hbb)]; simp
  · intro hk
    unfold get
    simp only [bind, Except.bind, getKey_bad key none (by simp) hk]
  · intro hk hd
    obtain ⟨t, hti, -, herr⟩ := getKey_good hl hb key none (by simp) hk
    have := herr (fun h => hd (fun b hbb j hj => by simpa using h b hbb j hj))
    unfold get
    simp only [bind, Except.bind, this]

/-- **C166.** Storing, adding, adding circularly and (with a mask) multiplying accept a number, one value for all batch positions, or one value per batch position, as a number,
as sequences or as a tensor, and update exactly the slots of the selected batch positions, number by number. Anything else is refused and changes nothing. -/
theorem C166_update_partial {K α : Type} [Add α] [Mul α] [Zero α] [One α] (h0 : ∀ x : α, x + 0 = x) (h1 : ∀ x : α, x * 1 = x) (md : α → α → α) (conv : K → α) (m : Mem α)
    (hmade : Made m.lay) (hb : ∀ n ∈ m.lay.bs, 0 < n) (key : Given Int) (value mod : Given K) (mask : Option (Given Bool)) (wm : Given Bool) :
    Performs m key value mask True (fun b v _ => conv (numberAt m.lay value b v)) (set conv m key value mask) ∧
    Performs m key value mask True (fun b v x => x + conv (numberAt m.lay value b v)) (add conv m key value mask) ∧
    Performs m key value mask (GoodValue m.lay mod) (fun b v x => md (x + conv (numberAt m.lay value b v)) (conv (numberAt m.lay mod b v))) (addCircular md conv m key value mod mask) ∧
    Performs m key value (some wm) True (fun b v x => x * conv (numberAt m.lay value b v)) (multiply conv m key value (some wm)) := by
  refine ⟨?_, ?_, ?_, ?_⟩
  · refine modify_performs conv m hmade hb key value mask True _ _ (fun _ old val w ho hv hw hvi _ => ?_) (fun h => absurd trivial h)
    cases w with
    | none => exact ⟨val, rfl, fun b v _ hvl => by simp [hvi b v hvl]⟩
    | some w =>
      obtain ⟨t, ht, -, hti⟩ := doWhere_full w val old _ _ (hw w rfl) hv ho
      refine ⟨t, ht, fun b v hbl hvl => ?_⟩
      rw [hti b v hbl, hvi b v hvl]; rfl
  · refine modify_performs conv m hmade hb key value mask True _ _ (fun _ old val w ho hv hw hvi _ => ?_) (fun h => absurd trivial h)
    cases w with
    | none => exact ⟨_, rfl, fun b v _ hvl => by simp [zip, hvi b v hvl]⟩
    | some w =>
      obtain ⟨t, ht, -, hti⟩ := doWhere_scalar w val (0 : α) _ _ (hw w rfl) hv
      refine ⟨zip (· + ·) old t, by simp only [ht, bind, Except.bind], fun b v hbl hvl => ?_⟩
      show old.item (b ++ v) + t.item (b ++ v) = _
      rw [hti b v hbl, hvi b v hvl]
      by_cases hwi : w.item b = true <;> simp [hwi, h0]
  · refine modify_performs conv m hmade hb key value mask _ _ _ (fun hx old val w ho hv hw hvi _ => ?_) (fun h old val w => ?_)
    · obtain ⟨mo, hmo, hms, hmi⟩ := getValue_good conv m.lay mod hx
      cases w with
      | none =>
        refine ⟨zip md (zip (· + ·) old val) mo, by simp only [hmo, bind, Except.bind], fun b v _ hvl => ?_⟩
        simp [zip, hvi b v hvl, hmi b v hvl]
      | some w =>
        obtain ⟨t, ht, -, hti⟩ := doWhere_full w (zip md (zip (· + ·) old val) mo) old _ _ (hw w rfl) ho ho
        refine ⟨t, by simp only [hmo, bind, Except.bind]; exact ht, fun b v hbl hvl => ?_⟩
        rw [hti b v hbl]
        show (if w.item b then md (old.item (b ++ v) + val.item (b ++ v)) (mo.item (b ++ v)) else old.item (b ++ v)) = _
        rw [hvi b v hvl, hmi b v hvl]; rfl
    · exact ⟨.runtimeError, by simp only [getValue_bad conv _ _ h, bind, Except.bind]⟩
  · refine modify_performs conv m hmade hb key value (some wm) True _ _ (fun _ old val w ho hv hw hvi hwm => ?_) (fun h => absurd trivial h)
    cases w with
    | none => simp at hwm
    | some w =>
      obtain ⟨t, ht, -, hti⟩ := doWhere_scalar w val (1 : α) _ _ (hw w rfl) hv
      refine ⟨zip (· * ·) old t, by simp only [ht, bind, Except.bind], fun b v hbl hvl => ?_⟩
      show old.item (b ++ v) * t.item (b ++ v) = _
      rw [hti b v hbl, hvi b v hvl]
      by_cases hwi : w.item b = true <;> simp [hwi, h1]

/-- **C166.** So do the operations of memories of booleans: adding is "or", multiplying is "and". -/
theorem C166_update_bool {K : Type} (conv : K → Bool) (m : Mem Bool) (hmade : Made m.lay) (hb : ∀ n ∈ m.lay.bs, 0 < n) (key : Given Int) (value : Given K) (mask : Option (Given Bool)) :
    Performs m key value mask True (fun b v x => x || conv (numberAt m.lay value b v)) (addBool conv m key value mask) ∧
    Performs m key value mask True (fun b v x => x && conv (numberAt m.lay value b v)) (multiplyBool conv m key value mask) := by
  constructor
  · refine modify_performs conv m hmade hb key value mask True _ _ (fun _ old val w ho hv hw hvi _ => ?_) (fun h => absurd trivial h)
    cases w with
    | none => exact ⟨_, rfl, fun b v _ hvl => by simp [zip, hvi b v hvl]⟩
    | some w =>
      refine ⟨_, rfl, fun b v hbl hvl => ?_⟩
      show (old.item (b ++ v) || (val.item (b ++ v) && w.item ((b ++ v).take m.lay.bs.length))) = _
      rw [hvi b v hvl, ← hbl, List.take_left]
      by_cases hwi : w.item b = true <;> simp [hwi]
  · refine modify_performs conv m hmade hb key value mask True _ _ (fun _ old val w ho hv hw hvi _ => ?_) (fun h => absurd trivial h)
    cases w with
    | none => exact ⟨_, rfl, fun b v _ hvl => by simp [zip, hvi b v hvl]⟩
    | some w =>
      obtain ⟨t, ht, -, hti⟩ := doWhere_scalar w val true _ _ (hw w rfl) hv
      refine ⟨zip (· && ·) old t, by simp only [ht, bind, Except.bind], fun b v hbl hvl => ?_⟩
      show (old.item (b ++ v) && t.item (b ++ v)) = _
      rw [hti b v hbl, hvi b v hvl]
      by_cases hwi : w.item b = true <;> simp [hwi]

/-- **C166.** Subtracting, and dividing with a mask, do the same for numbers and tensors. -/
theorem C166_subtract_partial {K α : Type} [Neg K] [Inv K] [Add α] [Mul α] [Zero α] [One α] (h0 : ∀ x : α, x + 0 = x) (h1 : ∀ x : α, x * 1 = x) (conv : K → α) (m : Mem α)
    (hmade : Made m.lay) (hb : ∀ n ∈ m.lay.bs, 0 < n) (key : Given Int) (value : Given K) (hv : ∀ t, value ≠ .sequence t) (mask : Option (Given Bool)) (wm : Given Bool) :
    Performs m key value mask True (fun b v x => x + conv (-numberAt m.lay value b v)) (subtract conv m key value mask) ∧
    Performs m key value (some wm) True (fun b v x => x * conv (numberAt m.lay value b v)⁻¹) (divide conv m key value (some wm)) := by
  have key' : ∀ f : K → K, ∃ v', value.map f = .ok v' ∧ v'.shape = value.shape ∧ ∀ p, v'.entry p = f (value.entry p) := by
    intro f
    cases value with
    | number x => exact ⟨_, rfl, rfl, fun _ => rfl⟩
    | sequence t => exact absurd rfl (hv t)
    | tensor t => exact ⟨_, rfl, rfl, fun _ => rfl⟩
  have num : ∀ (f : K → K) (v' : Given K), v'.shape = value.shape → (∀ p, v'.entry p = f (value.entry p)) → ∀ b v, numberAt m.lay v' b v = f (numberAt m.lay value b v) := by
    intro f v' hs he b v
    unfold numberAt
    rw [hs, he, he, he]
    split
    · rfl
    · split <;> rfl
  have acc : ∀ (v' : Given K) (mk : Option (Given Bool)), v'.shape = value.shape → (Accepted m.lay key v' mk ↔ Accepted m.lay key value mk) := by
    intro v' mk hs
    constructor
    · rintro ⟨a, b, c, d⟩; exact ⟨a, b, by unfold GoodValue at *; rwa [hs] at c, d⟩
    · rintro ⟨a, b, c, d⟩; exact ⟨a, b, by unfold GoodValue at *; rwa [hs], d⟩
  constructor
  · obtain ⟨v', hm, hs, he⟩ := key' (fun x => -x)
    have := (C166_update_partial h0 h1 (fun a _ => a) conv m hmade hb key v' v' mask wm).2.1
    unfold subtract
    rw [hm]
    simp only
    unfold Performs at this ⊢
    rw [acc v' mask hs] at this
    simp only [num _ v' hs he] at this
    exact this
  · obtain ⟨v', hm, hs, he⟩ := key' (fun x => x⁻¹)
    have := (C166_update_partial h0 h1 (fun a _ => a) conv m hmade hb key v' v' mask wm).2.2.2
    unfold divide
    rw [hm]
    simp only
    unfold Performs at this ⊢
    rw [acc v' (some wm) hs] at this
    simp only [num _ v' hs he] at this
    exact this

/-- **C166 (violation).** Lists and tuples of numbers, which the other operations accept, are refused by `subtract_` and `divide_` with a TypeError, whatever their shapes. -/
theorem C166_violated_sequences {K α : Type} [Neg K] [Inv K] [Add α] [Mul α] [Zero α] [One α] (conv : K → α) (m : Mem α) (key : Given Int) (t : Tensor K) (mask : Option (Given Bool)) :
    subtract conv m key (.sequence t) mask = ⟨m, .error .typeError⟩ ∧ divide conv m key (.sequence t) mask = ⟨m, .error .typeError⟩ := ⟨rfl, rfl⟩

/-- A memory as in the constructor's example, with a call that is accepted: the key `(1, -1)` for all four batch positions, one matrix for all, no mask. -/
example : ∃ l, layout [.int 2, .int 3] (.seq [3, 5]) (some (.seq [1, -1])) none (some (.int 4)) = .ok l ∧ Made l ∧ (∀ n ∈ l.bs, 0 < n) ∧
    Accepted l (.sequence ⟨[2], fun p => if p = [0] then 1 else -1⟩) (.tensor ⟨[2, 3], fun p => (p.sum : Rat)⟩) none := by
  refine ⟨⟨true, [3, 5], some [1, -1], [2, 3], [4]⟩, rfl, ⟨[.int 2, .int 3], .seq [3, 5], some (.seq [1, -1]), none, some (.int 4), rfl⟩, by decide, ⟨by simp, .inr ⟨rfl, fun _ => rfl⟩, .inr (.inl rfl), ?_⟩⟩
  intro b _
  refine ⟨fun _ j hj => ?_, fun h => by simp [chosen] at h⟩
  have : j = 0 ∨ j = 1 := by simp at hj; omega
  rcases this with rfl | rfl <;> simp [keyAt, Given.shape, Layout.keyShape, Given.entry, Layout.off]

end EvoTorch.MemoryShapes
